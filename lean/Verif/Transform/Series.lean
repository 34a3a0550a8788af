import Verif.Transform.Fft
import Verif.Transform.SpecB
import Mathlib.Analysis.SpecialFunctions.Trigonometric.Deriv

/-!
# What the geometry arrays hold at a grid point
-/
namespace Verif.Transform
open Verif Verif.Fourier Partition Finset

variable {c : Ctx}

/-- what a mode contributes to an array -/
noncomputable def gVal (a : GArr) (y : Slot → ℝ) (p : PolEntry) : ℝ :=
  match a with
  | .r1 => y .rmkcc * p.cosmu + y .rmkss * p.sinmu
  | .ru => y .rmkcc * p.sinmum + y .rmkss * p.cosmum
  | .rv => y .rmkcc_n * p.cosmu + y .rmkss_n * p.sinmu
  | .z1 => y .zmksc * p.sinmu + y .zmkcs * p.cosmu
  | .zu => y .zmksc * p.cosmum + y .zmkcs * p.sinmum
  | .zv => y .zmksc_n * p.sinmu + y .zmkcs_n * p.cosmu
  | .lu => y .lmksc * p.cosmum + y .lmkcs * p.sinmum
  | .lv => -(y .lmksc_n * p.sinmu + y .lmkcs_n * p.cosmu)

theorem pointSum_geo (jF m k l : Int) (y : Slot → ℝ) (a : GArr) (e : Bool) (i : Int) :
    pointSum c jF m k y l (.geo a e) i =
      if isEven m = e ∧ i = idxKl c c.r.nsMinF1 jF k + l then gVal a y (polAt c m l) else 0 := by
  unfold pointSum
  by_cases h : c.r.nsMinF ≤ jF ∧ jF < c.r.nsMaxFIncludingLcfs
  · rw [if_pos h]
    simp only [Pi.add_apply, single_apply, Arr.geo.injEq, reduceCtorEq, false_and, if_false, add_zero]
    cases a <;> simp only [reduceCtorEq, false_and, true_and, if_false, add_zero, zero_add, gVal, eq_comm (a := e)]
  · rw [if_neg h]
    simp only [Pi.add_apply, Pi.zero_apply, single_apply, Arr.geo.injEq, add_zero]
    cases a <;> simp only [reduceCtorEq, false_and, true_and, if_false, add_zero, zero_add, gVal, eq_comm (a := e)]

theorem pointSum_con (jF m k l : Int) (y : Slot → ℝ) (i : Int) (h : c.r.nsMinF ≤ jF ∧ jF < c.r.nsMaxFIncludingLcfs) :
    (pointSum c jF m k y l .rCon i =
      if i = idxKl c c.r.nsMinF jF k + l then gVal .r1 y (polAt c m l) * conFactor c jF m else 0) ∧
    (pointSum c jF m k y l .zCon i =
      if i = idxKl c c.r.nsMinF jF k + l then gVal .z1 y (polAt c m l) * conFactor c jF m else 0) := by
  unfold pointSum gVal
  dsimp only
  rw [if_pos h]
  constructor <;>
    simp only [Pi.add_apply, single_apply, reduceCtorEq, false_and, true_and, if_false, add_zero, zero_add]

theorem pointSum_con_skip (jF m k l : Int) (y : Slot → ℝ) (i : Int) (h : ¬ (c.r.nsMinF ≤ jF ∧ jF < c.r.nsMaxFIncludingLcfs)) :
    pointSum c jF m k y l .rCon i = 0 ∧ pointSum c jF m k y l .zCon i = 0 := by
  unfold pointSum
  rw [if_neg h]
  constructor <;>
    simp only [Pi.add_apply, Pi.zero_apply, single_apply, reduceCtorEq, false_and, if_false, add_zero]

theorem idxKl_inj {j0 jF jF' k k' l l' : Int} (k0 : 0 ≤ k) (k1 : k < c.s.nZeta) (k0' : 0 ≤ k') (k1' : k' < c.s.nZeta)
    (l0 : 0 ≤ l) (l1 : l < c.s.nThetaEff) (l0' : 0 ≤ l') (l1' : l' < c.s.nThetaEff)
    (h : idxKl c j0 jF k + l = idxKl c j0 jF' k' + l') : jF = jF' ∧ k = k' ∧ l = l' := by
  unfold idxKl at h
  obtain ⟨h1, h2⟩ := flat_inj l0 l1 l0' l1' h
  obtain ⟨h3, h4⟩ := flat_inj k0 k1 k0' k1' h1
  exact ⟨by omega, h4, h2⟩

/-- a value that is stored at one grid point only -/
theorem pick (j0 jlo jhi : Int) (V : Int → Int → Int → ℝ) {jF k l : Int} (hj : jlo ≤ jF ∧ jF < jhi) (hk : 0 ≤ k ∧ k < c.s.nZeta)
    (hl : 0 ≤ l ∧ l < c.s.nThetaReduced) (ht : c.s.nThetaReduced ≤ c.s.nThetaEff) :
    ∑ jF' ∈ Ico jlo jhi, ∑ k' ∈ Ico 0 c.s.nZeta, ∑ l' ∈ Ico 0 c.s.nThetaReduced,
      (if idxKl c j0 jF k + l = idxKl c j0 jF' k' + l' then V jF' k' l' else 0) = V jF k l := by
  rw [Finset.sum_eq_single jF, Finset.sum_eq_single k, Finset.sum_eq_single l, if_pos rfl]
  · intro l' hl' hne
    rw [Finset.mem_Ico] at hl'
    exact if_neg fun e => hne (idxKl_inj hk.1 hk.2 hk.1 hk.2 hl.1 (by omega) hl'.1 (by omega) e).2.2.symm
  · intro hh; exact absurd (Finset.mem_Ico.2 hl) hh
  · intro k' hk' hne
    rw [Finset.mem_Ico] at hk'
    refine Finset.sum_eq_zero fun l' hl' => ?_
    rw [Finset.mem_Ico] at hl'
    exact if_neg fun e => hne (idxKl_inj hk.1 hk.2 hk'.1 hk'.2 hl.1 (by omega) hl'.1 (by omega) e).2.1.symm
  · intro hh; exact absurd (Finset.mem_Ico.2 hk) hh
  · intro j' _ hne
    refine Finset.sum_eq_zero fun k' hk' => Finset.sum_eq_zero fun l' hl' => ?_
    rw [Finset.mem_Ico] at hl' hk'
    exact if_neg fun e => hne (idxKl_inj hk.1 hk.2 hk'.1 hk'.2 hl.1 (by omega) hl'.1 (by omega) e).1.symm
  · intro hh; exact absurd (Finset.mem_Ico.2 hj) hh

/-- modes of a surface -/
theorem mode_mem {jF m : Int} (e : Bool) (h0 : 0 ≤ jF) :
    m ∈ Spec.modes c.s.mpol jF e ↔ m ∈ Ico 0 c.s.mpol ∧ ¬ jF < jMin m ∧ isEven m = e := by
  unfold Spec.modes
  rw [Finset.mem_filter, Finset.mem_Ico]
  have he : isEven m = e ↔ (2 ∣ m ↔ e = true) := by
    unfold isEven
    rw [Int.dvd_iff_tmod_eq_zero]
    cases e <;> simp
  rw [he]
  unfold jMin
  constructor
  · rintro ⟨h1, h2, h3⟩
    refine ⟨h1, ?_, h2⟩
    split
    · omega
    · intro hh; have := h3 (by omega); omega
  · rintro ⟨h1, h2, h3⟩
    refine ⟨h1, h3, ?_⟩
    intro hj
    by_contra hm
    rw [if_neg (by omega)] at h2
    omega

/-- linear in the plane sums -/
theorem gVal_sum (a : GArr) (S : Finset Int) (y : Int → Slot → ℝ) (p : PolEntry) :
    gVal a (fun q => ∑ n ∈ S, y n q) p = ∑ n ∈ S, gVal a (y n) p := by
  cases a <;> simp only [gVal, Finset.sum_mul, Finset.sum_add_distrib, Finset.sum_neg_distrib]

/-- an array of the geometry at a grid point is a sum over the modes of its parity -/
theorem geo_apply (x : Coef → Int → ℝ) (a : GArr) (e : Bool) {jF k l : Int} (hj : c.r.nsMinF1 ≤ jF ∧ jF < c.r.nsMaxF1)
    (h0 : 0 ≤ jF) (hk : 0 ≤ k ∧ k < c.s.nZeta) (hl : 0 ≤ l ∧ l < c.s.nThetaReduced) (ht : c.s.nThetaReduced ≤ c.s.nThetaEff) :
    fourierToRealDft c x (.geo a e) (idxKl c c.r.nsMinF1 jF k + l) =
      ∑ m ∈ Spec.modes c.s.mpol jF e, ∑ n ∈ Ico 0 (c.s.ntor + 1),
        gVal a (torTerm (fun a => x a (idxMn c c.r.nsMinF1 jF m n)) (torAt c k n)) (polAt c m l) := by
  rw [fourierToRealDft_eq]
  unfold surfaceSum
  simp only [Finset.sum_apply]
  have e1 : ∀ jF' ∈ Ico c.r.nsMinF1 c.r.nsMaxF1, ∀ m ∈ Ico 0 c.s.mpol,
      (if jF' < jMin m then (0 : Arr → Int → ℝ) else ∑ k' ∈ Ico 0 c.s.nZeta, ∑ l' ∈ Ico 0 c.s.nThetaReduced,
        pointSum c jF' m k' (torSums c x jF' m k') l') (.geo a e) (idxKl c c.r.nsMinF1 jF k + l) =
      ∑ k' ∈ Ico 0 c.s.nZeta, ∑ l' ∈ Ico 0 c.s.nThetaReduced, if idxKl c c.r.nsMinF1 jF k + l = idxKl c c.r.nsMinF1 jF' k' + l' then
        (if ¬ jF' < jMin m ∧ isEven m = e then gVal a (torSums c x jF' m k') (polAt c m l') else 0) else 0 := by
    intro jF' _ m _
    split
    · rename_i hlt
      simp [hlt]
    · rename_i hlt
      simp only [Finset.sum_apply]
      refine Finset.sum_congr rfl fun k' _ => Finset.sum_congr rfl fun l' _ => ?_
      rw [pointSum_geo]
      by_cases h1 : isEven m = e <;> simp [hlt, h1]
  rw [Finset.sum_congr rfl fun jF' hj' => Finset.sum_congr rfl fun m hm => e1 jF' hj' m hm, Finset.sum_comm]
  rw [Finset.sum_congr rfl fun m _ => pick c.r.nsMinF1 c.r.nsMinF1 c.r.nsMaxF1 (fun jF' k' l' =>
    if ¬ jF' < jMin m ∧ isEven m = e then gVal a (torSums c x jF' m k') (polAt c m l') else 0) hj hk hl ht]
  rw [← Finset.sum_filter]
  have hS : (Ico 0 c.s.mpol).filter (fun m => ¬ jF < jMin m ∧ isEven m = e) = Spec.modes c.s.mpol jF e := by
    ext m
    rw [Finset.mem_filter, mode_mem e h0]
  rw [hS]
  refine Finset.sum_congr rfl fun m _ => ?_
  rw [torSums_eq, gVal_sum]

/-- the constraint arrays -/
theorem con_apply (x : Coef → Int → ℝ) {jF k l : Int} (hj : c.r.nsMinF1 ≤ jF ∧ jF < c.r.nsMaxF1)
    (hc : c.r.nsMinF ≤ jF ∧ jF < c.r.nsMaxFIncludingLcfs)
    (h0 : 0 ≤ jF) (hk : 0 ≤ k ∧ k < c.s.nZeta) (hl : 0 ≤ l ∧ l < c.s.nThetaReduced) (ht : c.s.nThetaReduced ≤ c.s.nThetaEff)
    (A : Arr) (a : GArr) (hA : (A = .rCon ∧ a = .r1) ∨ (A = .zCon ∧ a = .z1)) :
    fourierToRealDft c x A (idxKl c c.r.nsMinF jF k + l) =
      (∑ m ∈ Spec.modes c.s.mpol jF true, ∑ n ∈ Ico 0 (c.s.ntor + 1),
        c.xmpq m * gVal a (torTerm (fun a => x a (idxMn c c.r.nsMinF1 jF m n)) (torAt c k n)) (polAt c m l)) +
      c.sqrtSF (jF - c.r.nsMinF1) * ∑ m ∈ Spec.modes c.s.mpol jF false, ∑ n ∈ Ico 0 (c.s.ntor + 1),
        c.xmpq m * gVal a (torTerm (fun a => x a (idxMn c c.r.nsMinF1 jF m n)) (torAt c k n)) (polAt c m l) := by
  rw [fourierToRealDft_eq]
  unfold surfaceSum
  simp only [Finset.sum_apply]
  have e1 : ∀ jF' ∈ Ico c.r.nsMinF1 c.r.nsMaxF1, ∀ m ∈ Ico 0 c.s.mpol,
      (if jF' < jMin m then (0 : Arr → Int → ℝ) else ∑ k' ∈ Ico 0 c.s.nZeta, ∑ l' ∈ Ico 0 c.s.nThetaReduced,
        pointSum c jF' m k' (torSums c x jF' m k') l') A (idxKl c c.r.nsMinF jF k + l) =
      ∑ k' ∈ Ico 0 c.s.nZeta, ∑ l' ∈ Ico 0 c.s.nThetaReduced, if idxKl c c.r.nsMinF jF k + l = idxKl c c.r.nsMinF jF' k' + l' then
        (if ¬ jF' < jMin m ∧ (c.r.nsMinF ≤ jF' ∧ jF' < c.r.nsMaxFIncludingLcfs) then
          gVal a (torSums c x jF' m k') (polAt c m l') * conFactor c jF' m else 0) else 0 := by
    intro jF' _ m _
    split
    · rename_i hlt
      simp [hlt]
    · rename_i hlt
      simp only [Finset.sum_apply]
      refine Finset.sum_congr rfl fun k' _ => Finset.sum_congr rfl fun l' _ => ?_
      by_cases hh : c.r.nsMinF ≤ jF' ∧ jF' < c.r.nsMaxFIncludingLcfs
      · rcases hA with ⟨rfl, rfl⟩ | ⟨rfl, rfl⟩
        · rw [(pointSum_con jF' m k' l' _ _ hh).1]; simp [hlt, hh]
        · rw [(pointSum_con jF' m k' l' _ _ hh).2]; simp [hlt, hh]
      · have hz : pointSum c jF' m k' (torSums c x jF' m k') l' A (idxKl c c.r.nsMinF jF k + l) = 0 := by
          rcases hA with ⟨rfl, rfl⟩ | ⟨rfl, rfl⟩
          · exact (pointSum_con_skip jF' m k' l' _ _ hh).1
          · exact (pointSum_con_skip jF' m k' l' _ _ hh).2
        rw [hz]
        rw [if_neg (show ¬ (¬ jF' < jMin m ∧ (c.r.nsMinF ≤ jF' ∧ jF' < c.r.nsMaxFIncludingLcfs)) from fun h => hh h.2)]
        simp
  rw [Finset.sum_congr rfl fun jF' hj' => Finset.sum_congr rfl fun m hm => e1 jF' hj' m hm, Finset.sum_comm]
  rw [Finset.sum_congr rfl fun m _ => pick c.r.nsMinF c.r.nsMinF1 c.r.nsMaxF1 (fun jF' k' l' =>
    if ¬ jF' < jMin m ∧ (c.r.nsMinF ≤ jF' ∧ jF' < c.r.nsMaxFIncludingLcfs) then
          gVal a (torSums c x jF' m k') (polAt c m l') * conFactor c jF' m else 0) hj hk hl ht]
  have hS : ∀ e, Spec.modes c.s.mpol jF e = (Ico 0 c.s.mpol).filter (fun m => ¬ jF < jMin m ∧ isEven m = e) := by
    intro e
    ext m
    rw [Finset.mem_filter, mode_mem e h0]
  rw [hS, hS, Finset.sum_filter, Finset.sum_filter, Finset.mul_sum, ← Finset.sum_add_distrib]
  refine Finset.sum_congr rfl fun m _ => ?_
  unfold conFactor
  rw [torSums_eq, gVal_sum]
  by_cases h1 : jF < jMin m
  · simp [h1]
  · cases h2 : isEven m
    · simp [h1, hc, Finset.sum_mul, Finset.mul_sum]
      exact Finset.sum_congr rfl fun n _ => by ring
    · simp [h1, hc, Finset.sum_mul]
      exact Finset.sum_congr rfl fun n _ => by ring

/-! ### at a grid point the tables hold the trigonometric functions -/

/-- sizes of the poloidal grid -/
structure GoodP (c : Ctx) : Prop extends Good c where
  nfp : 1 ≤ c.s.nfp
  m2 : c.s.mpol < c.s.mnyq2 + 1
  even : c.s.nThetaEven = 2 * (c.s.nThetaReduced - 1)
  red : 2 ≤ c.s.nThetaReduced
  eff : c.s.nThetaReduced ≤ c.s.nThetaEff

theorem polAt_eq (h : GoodP c) {m l : Int} (m0 : 0 ≤ m) (m1 : m < c.s.mpol) (l0 : 0 ≤ l) (l1 : l < c.s.nThetaReduced) :
    polAt c m l = polEntry c.s scale m l :=
  pol_eq fastPoloidal (Or.inl rfl) c.s m l m0 (by have := h.m2; omega) l0 l1

theorem theta_eq (h : GoodP c) (l : Int) : 2 * Real.pi * l / c.s.nThetaEven = Spec.gridTheta c.s l := by
  unfold Spec.gridTheta
  rw [h.even]
  have : ((c.s.nThetaReduced : ℝ) - 1) ≠ 0 := by
    have := h.red
    have h2 : (2:ℝ) ≤ c.s.nThetaReduced := by exact_mod_cast this
    linarith
  push_cast
  field_simp

theorem zeta_eq (h : GoodP c) (n k : Int) : (n : ℝ) * (2 * Real.pi * k / c.s.nZeta) = n * c.s.nfp * Spec.gridPhi c.s k := by
  unfold Spec.gridPhi
  have : (c.s.nfp : ℝ) ≠ 0 := by
    have := h.nfp
    have h2 : (1:ℝ) ≤ c.s.nfp := by exact_mod_cast this
    linarith
  field_simp

/-- a mode of `R` -/
noncomputable def evenMode (nfp m n : Int) (cc ss θ φ : ℝ) : ℝ := scale m * scale n *
    (cc * Real.cos (m * θ) * Real.cos (n * nfp * φ) + ss * Real.sin (m * θ) * Real.sin (n * nfp * φ))
noncomputable def oddMode (nfp m n : Int) (sc cs θ φ : ℝ) : ℝ := scale m * scale n *
    (sc * Real.sin (m * θ) * Real.cos (n * nfp * φ) + cs * Real.cos (m * θ) * Real.sin (n * nfp * φ))

theorem cos_deriv (a x : ℝ) : HasDerivAt (fun x => Real.cos (a * x)) (-a * Real.sin (a * x)) x := by
  have := ((hasDerivAt_id x).const_mul a).cos
  refine this.congr_deriv ?_
  simp only [id, mul_one]; ring
theorem sin_deriv (a x : ℝ) : HasDerivAt (fun x => Real.sin (a * x)) (a * Real.cos (a * x)) x := by
  have := ((hasDerivAt_id x).const_mul a).sin
  refine this.congr_deriv ?_
  simp only [id, mul_one]; ring

/-- what a mode adds to each array is its value or derivative at the grid point -/
theorem mode_values (h : GoodP c) (X : Coef → ℝ) {m n k l : Int} (m0 : 0 ≤ m) (m1 : m < c.s.mpol) (n0 : 0 ≤ n) (n1 : n ≤ c.s.ntor)
    (hk : 0 ≤ k ∧ k < c.s.nZeta) (hl : 0 ≤ l ∧ l < c.s.nThetaReduced) :
    let y := torTerm X (torAt c k n)
    let p := polAt c m l
    let θ := Spec.gridTheta c.s l
    let φ := Spec.gridPhi c.s k
    gVal .r1 y p = evenMode c.s.nfp m n (X .rcc) (X .rss) θ φ ∧
    HasDerivAt (fun θ => evenMode c.s.nfp m n (X .rcc) (X .rss) θ φ) (gVal .ru y p) θ ∧
    HasDerivAt (fun φ => evenMode c.s.nfp m n (X .rcc) (X .rss) θ φ) (gVal .rv y p) φ ∧
    gVal .z1 y p = oddMode c.s.nfp m n (X .zsc) (X .zcs) θ φ ∧
    HasDerivAt (fun θ => oddMode c.s.nfp m n (X .zsc) (X .zcs) θ φ) (gVal .zu y p) θ ∧
    HasDerivAt (fun φ => oddMode c.s.nfp m n (X .zsc) (X .zcs) θ φ) (gVal .zv y p) φ ∧
    HasDerivAt (fun θ => oddMode c.s.nfp m n (X .lsc) (X .lcs) θ φ) (gVal .lu y p) θ ∧
    HasDerivAt (fun φ => oddMode c.s.nfp m n (X .lsc) (X .lcs) θ φ) (-gVal .lv y p) φ := by
  intro y p θ φ
  have hy : torAt c k n = torEntry c.s scale c.s.nfp n k := torAt_eq h.toGood hk.1 hk.2 n0 n1
  have hp : polAt c m l = polEntry c.s scale m l := polAt_eq h m0 m1 hl.1 hl.2
  have hθ : 2 * Real.pi * l / c.s.nThetaEven = θ := theta_eq h l
  have hφ : (n : ℝ) * (2 * Real.pi * k / c.s.nZeta) = n * c.s.nfp * φ := zeta_eq h n k
  have d1 := cos_deriv m θ
  have d2 := sin_deriv m θ
  have d3 := cos_deriv (n * c.s.nfp) φ
  have d4 := sin_deriv (n * c.s.nfp) φ
  have E1 : ∀ a b : ℝ, HasDerivAt (fun θ => evenMode c.s.nfp m n a b θ φ) (scale m * scale n *
      (a * (-m * Real.sin (m * θ)) * Real.cos (n * c.s.nfp * φ) + b * (m * Real.cos (m * θ)) * Real.sin (n * c.s.nfp * φ))) θ :=
    fun a b => (((d1.const_mul a).mul_const _).fun_add ((d2.const_mul b).mul_const _)).const_mul _
  have E2 : ∀ a b : ℝ, HasDerivAt (fun φ => evenMode c.s.nfp m n a b θ φ) (scale m * scale n *
      (a * Real.cos (m * θ) * (-(n * c.s.nfp) * Real.sin (n * c.s.nfp * φ)) +
        b * Real.sin (m * θ) * (n * c.s.nfp * Real.cos (n * c.s.nfp * φ)))) φ :=
    fun a b => ((d3.const_mul (a * Real.cos (m * θ))).fun_add (d4.const_mul (b * Real.sin (m * θ)))).const_mul _
  have O1 : ∀ a b : ℝ, HasDerivAt (fun θ => oddMode c.s.nfp m n a b θ φ) (scale m * scale n *
      (a * (m * Real.cos (m * θ)) * Real.cos (n * c.s.nfp * φ) + b * (-m * Real.sin (m * θ)) * Real.sin (n * c.s.nfp * φ))) θ :=
    fun a b => (((d2.const_mul a).mul_const _).fun_add ((d1.const_mul b).mul_const _)).const_mul _
  have O2 : ∀ a b : ℝ, HasDerivAt (fun φ => oddMode c.s.nfp m n a b θ φ) (scale m * scale n *
      (a * Real.sin (m * θ) * (-(n * c.s.nfp) * Real.sin (n * c.s.nfp * φ)) +
        b * Real.cos (m * θ) * (n * c.s.nfp * Real.cos (n * c.s.nfp * φ)))) φ :=
    fun a b => ((d3.const_mul (a * Real.sin (m * θ))).fun_add (d4.const_mul (b * Real.cos (m * θ)))).const_mul _
  refine ⟨?_, (E1 _ _).congr_deriv ?_, (E2 _ _).congr_deriv ?_, ?_, (O1 _ _).congr_deriv ?_, (O2 _ _).congr_deriv ?_,
    (O1 _ _).congr_deriv ?_, (O2 _ _).congr_deriv ?_⟩ <;>
  · show _ = _
    simp only [y, p, hy, hp, gVal, torTerm, torEntry, polEntry, hθ, hφ, evenMode, oddMode]
    ring

end Verif.Transform
