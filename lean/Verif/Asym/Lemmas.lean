import Verif.Asym.Spec
import Verif.Transform.Adjoint

/-!
# The antisymmetric transforms as sums
-/
namespace Verif.Asym
open Verif Verif.Fourier Partition Finset Transform

theorem slot_sumA {lo hi : Int} (v : Int → SlotA → ℝ) :
    forRange lo hi (fun n y => fun q => y q + v n q) (fun _ => 0) = fun q => ∑ n ∈ Ico lo hi, v n q := by
  have := forRange_add (lo := lo) (hi := hi) (M := SlotA → ℝ) v 0
  rw [show (fun (_ : SlotA) => (0:ℝ)) = 0 from rfl]
  refine Eq.trans this ?_
  funext q
  simp [Finset.sum_apply]

variable (c : Ctx)

/-- what a mode contributes to an array -/
noncomputable def gValA (a : GArr) (y : SlotA → ℝ) (p : PolEntry) : ℝ :=
  match a with
  | .r1 => y .rmksc * p.sinmu + y .rmkcs * p.cosmu
  | .ru => y .rmksc * p.cosmum + y .rmkcs * p.sinmum
  | .rv => y .rmksc_n * p.sinmu + y .rmkcs_n * p.cosmu
  | .z1 => y .zmkcc * p.cosmu + y .zmkss * p.sinmu
  | .zu => y .zmkcc * p.sinmum + y .zmkss * p.cosmum
  | .zv => y .zmkcc_n * p.cosmu + y .zmkss_n * p.sinmu
  | .lu => y .lmkcc * p.sinmum + y .lmkss * p.cosmum
  | .lv => -(y .lmkcc_n * p.cosmu + y .lmkss_n * p.sinmu)

/-- what mode `m` adds on surface `jF` in plane `k`, point `l` -/
noncomputable def pointSumA (jF m k : Int) (y : SlotA → ℝ) (l : Int) : Arr → Int → ℝ :=
  let p := polAt c m l
  let e := isEven m
  let i := idxKl c c.r.nsMinF1 jF k + l
  single (.geo .ru e) i (y .rmksc * p.cosmum + y .rmkcs * p.sinmum) +
  single (.geo .zu e) i (y .zmkcc * p.sinmum + y .zmkss * p.cosmum) +
  single (.geo .lu e) i (y .lmkcc * p.sinmum + y .lmkss * p.cosmum) +
  single (.geo .rv e) i (y .rmksc_n * p.sinmu + y .rmkcs_n * p.cosmu) +
  single (.geo .zv e) i (y .zmkcc_n * p.cosmu + y .zmkss_n * p.sinmu) +
  single (.geo .lv e) i (-(y .lmkcc_n * p.cosmu + y .lmkss_n * p.sinmu)) +
  single (.geo .r1 e) i (y .rmksc * p.sinmu + y .rmkcs * p.cosmu) +
  single (.geo .z1 e) i (y .zmkcc * p.cosmu + y .zmkss * p.sinmu) +
  if c.r.nsMinF ≤ jF ∧ jF < c.r.nsMaxFIncludingLcfs then
    single .rCon (idxKl c c.r.nsMinF jF k + l) ((y .rmksc * p.sinmu + y .rmkcs * p.cosmu) * conFactor c jF m) +
    single .zCon (idxKl c c.r.nsMinF jF k + l) ((y .zmkcc * p.cosmu + y .zmkss * p.sinmu) * conFactor c jF m)
  else 0

theorem poloidalA_eq (jF m k : Int) (y : SlotA → ℝ) (g : Arr → Int → ℝ) :
    poloidalA c jF m k y g = g + ∑ l ∈ Ico 0 c.s.nThetaReduced, pointSumA c jF m k y l := by
  unfold poloidalA
  dsimp only
  simp only [segAdd_eq]
  unfold pointSumA
  by_cases h : c.r.nsMinF ≤ jF ∧ jF < c.r.nsMaxFIncludingLcfs
  · simp only [if_pos h]
    simp only [Finset.sum_add_distrib]
    abel
  · simp only [if_neg h]
    simp only [Finset.sum_add_distrib, Finset.sum_const_zero]
    abel

theorem torSumsA_eq (x : CoefA → Int → ℝ) (jF m k : Int) : torSumsA c x jF m k = fun q =>
    ∑ n ∈ Ico 0 (c.s.ntor + 1), torTermA (fun a => x a (idxMn c c.r.nsMinF1 jF m n)) (torAt c k n) q := slot_sumA _

theorem polSumsA_eq (d : FArr → Bool → Int → ℝ) (jF m k : Int) : polSumsA c d jF m k = fun q =>
    ∑ l ∈ Ico 0 c.s.nThetaReduced,
      polTermA (c.xmpq m) (fun a => d a (isEven m) (idxKl c c.r.nsMinF jF k + l)) (polAt c m l) q := slot_sumA _

theorem fourierToRealA_eq (x : CoefA → Int → ℝ) : fourierToRealA c x =
    ∑ jF ∈ Ico c.r.nsMinF1 c.r.nsMaxF1, ∑ m ∈ Ico 0 c.s.mpol, if jF < jMin m then 0 else
      ∑ k ∈ Ico 0 c.s.nZeta, ∑ l ∈ Ico 0 c.s.nThetaReduced, pointSumA c jF m k (torSumsA c x jF m k) l := by
  unfold fourierToRealA
  rw [loop_add _ (fun jF => ∑ m ∈ Ico 0 c.s.mpol, if jF < jMin m then 0 else
      ∑ k ∈ Ico 0 c.s.nZeta, ∑ l ∈ Ico 0 c.s.nThetaReduced, pointSumA c jF m k (torSumsA c x jF m k) l),
    show (fun (_ : Arr) (_ : Int) => (0:ℝ)) = 0 from rfl, zero_add]
  intro jF g _ _
  rw [loop_add]
  intro m g _ _
  split
  · rw [add_zero]
  · rw [loop_add]
    intro k g _ _
    exact poloidalA_eq c jF m k _ g

variable {c}

theorem pointSumA_geo (jF m k l : Int) (y : SlotA → ℝ) (a : GArr) (e : Bool) (i : Int) :
    pointSumA c jF m k y l (.geo a e) i =
      if isEven m = e ∧ i = idxKl c c.r.nsMinF1 jF k + l then gValA a y (polAt c m l) else 0 := by
  unfold pointSumA
  by_cases h : c.r.nsMinF ≤ jF ∧ jF < c.r.nsMaxFIncludingLcfs
  · rw [if_pos h]
    simp only [Pi.add_apply, single_apply, Arr.geo.injEq, reduceCtorEq, false_and, if_false, add_zero]
    cases a <;> simp only [reduceCtorEq, false_and, true_and, if_false, add_zero, zero_add, gValA, eq_comm (a := e)]
  · rw [if_neg h]
    simp only [Pi.add_apply, Pi.zero_apply, single_apply, Arr.geo.injEq, add_zero]
    cases a <;> simp only [reduceCtorEq, false_and, true_and, if_false, add_zero, zero_add, gValA, eq_comm (a := e)]

theorem pointSumA_con (jF m k l : Int) (y : SlotA → ℝ) (i : Int) (A : Arr) (a : GArr)
    (hA : (A = .rCon ∧ a = .r1) ∨ (A = .zCon ∧ a = .z1)) :
    pointSumA c jF m k y l A i =
      if (c.r.nsMinF ≤ jF ∧ jF < c.r.nsMaxFIncludingLcfs) ∧ i = idxKl c c.r.nsMinF jF k + l then
        gValA a y (polAt c m l) * conFactor c jF m else 0 := by
  unfold pointSumA
  by_cases h : c.r.nsMinF ≤ jF ∧ jF < c.r.nsMaxFIncludingLcfs
  · rw [if_pos h]
    rcases hA with ⟨rfl, rfl⟩ | ⟨rfl, rfl⟩ <;>
      simp only [Pi.add_apply, single_apply, reduceCtorEq, false_and, true_and, if_false, add_zero, zero_add, h, and_self, gValA]
  · rw [if_neg h, if_neg (fun hh => h hh.1)]
    rcases hA with ⟨rfl, rfl⟩ | ⟨rfl, rfl⟩ <;>
      simp only [Pi.add_apply, Pi.zero_apply, single_apply, reduceCtorEq, false_and, if_false, add_zero]

/-- linear in the plane sums -/
theorem gValA_sum (a : GArr) (S : Finset Int) (y : Int → SlotA → ℝ) (p : PolEntry) :
    gValA a (fun q => ∑ n ∈ S, y n q) p = ∑ n ∈ S, gValA a (y n) p := by
  cases a <;> simp only [gValA, Finset.sum_mul, Finset.sum_add_distrib, Finset.sum_neg_distrib]

/-- an antisymmetric array at a point of the reduced interval is a sum over the modes of its parity -/
theorem geoA_apply (x : CoefA → Int → ℝ) (a : GArr) (e : Bool) {jF k l : Int} (hj : c.r.nsMinF1 ≤ jF ∧ jF < c.r.nsMaxF1)
    (h0 : 0 ≤ jF) (hk : 0 ≤ k ∧ k < c.s.nZeta) (hl : 0 ≤ l ∧ l < c.s.nThetaReduced) (ht : c.s.nThetaReduced ≤ c.s.nThetaEff) :
    fourierToRealA c x (.geo a e) (idxKl c c.r.nsMinF1 jF k + l) =
      ∑ m ∈ Transform.Spec.modes c.s.mpol jF e, ∑ n ∈ Ico 0 (c.s.ntor + 1),
        gValA a (torTermA (fun a => x a (idxMn c c.r.nsMinF1 jF m n)) (torAt c k n)) (polAt c m l) := by
  rw [fourierToRealA_eq]
  simp only [Finset.sum_apply]
  have e1 : ∀ jF' ∈ Ico c.r.nsMinF1 c.r.nsMaxF1, ∀ m ∈ Ico 0 c.s.mpol,
      (if jF' < jMin m then (0 : Arr → Int → ℝ) else ∑ k' ∈ Ico 0 c.s.nZeta, ∑ l' ∈ Ico 0 c.s.nThetaReduced,
        pointSumA c jF' m k' (torSumsA c x jF' m k') l') (.geo a e) (idxKl c c.r.nsMinF1 jF k + l) =
      ∑ k' ∈ Ico 0 c.s.nZeta, ∑ l' ∈ Ico 0 c.s.nThetaReduced, if idxKl c c.r.nsMinF1 jF k + l = idxKl c c.r.nsMinF1 jF' k' + l' then
        (if ¬ jF' < jMin m ∧ isEven m = e then gValA a (torSumsA c x jF' m k') (polAt c m l') else 0) else 0 := by
    intro jF' _ m _
    split
    · rename_i hlt
      simp [hlt]
    · rename_i hlt
      simp only [Finset.sum_apply]
      refine Finset.sum_congr rfl fun k' _ => Finset.sum_congr rfl fun l' _ => ?_
      rw [pointSumA_geo]
      by_cases h1 : isEven m = e <;> simp [hlt, h1]
  rw [Finset.sum_congr rfl fun jF' hj' => Finset.sum_congr rfl fun m hm => e1 jF' hj' m hm, Finset.sum_comm]
  rw [Finset.sum_congr rfl fun m _ => pick c.r.nsMinF1 c.r.nsMinF1 c.r.nsMaxF1 (fun jF' k' l' =>
    if ¬ jF' < jMin m ∧ isEven m = e then gValA a (torSumsA c x jF' m k') (polAt c m l') else 0) hj hk hl ht]
  rw [← Finset.sum_filter]
  have hS : (Ico 0 c.s.mpol).filter (fun m => ¬ jF < jMin m ∧ isEven m = e) = Transform.Spec.modes c.s.mpol jF e := by
    ext m
    rw [Finset.mem_filter, mode_mem e h0]
  rw [hS]
  refine Finset.sum_congr rfl fun m _ => ?_
  rw [torSumsA_eq, gValA_sum]

/-- the constraint arrays -/
theorem conA_apply (x : CoefA → Int → ℝ) {jF k l : Int} (hj : c.r.nsMinF1 ≤ jF ∧ jF < c.r.nsMaxF1)
    (hc : c.r.nsMinF ≤ jF ∧ jF < c.r.nsMaxFIncludingLcfs)
    (h0 : 0 ≤ jF) (hk : 0 ≤ k ∧ k < c.s.nZeta) (hl : 0 ≤ l ∧ l < c.s.nThetaReduced) (ht : c.s.nThetaReduced ≤ c.s.nThetaEff)
    (A : Arr) (a : GArr) (hA : (A = .rCon ∧ a = .r1) ∨ (A = .zCon ∧ a = .z1)) :
    fourierToRealA c x A (idxKl c c.r.nsMinF jF k + l) =
      (∑ m ∈ Transform.Spec.modes c.s.mpol jF true, ∑ n ∈ Ico 0 (c.s.ntor + 1),
        c.xmpq m * gValA a (torTermA (fun a => x a (idxMn c c.r.nsMinF1 jF m n)) (torAt c k n)) (polAt c m l)) +
      c.sqrtSF (jF - c.r.nsMinF1) * ∑ m ∈ Transform.Spec.modes c.s.mpol jF false, ∑ n ∈ Ico 0 (c.s.ntor + 1),
        c.xmpq m * gValA a (torTermA (fun a => x a (idxMn c c.r.nsMinF1 jF m n)) (torAt c k n)) (polAt c m l) := by
  rw [fourierToRealA_eq]
  simp only [Finset.sum_apply]
  have e1 : ∀ jF' ∈ Ico c.r.nsMinF1 c.r.nsMaxF1, ∀ m ∈ Ico 0 c.s.mpol,
      (if jF' < jMin m then (0 : Arr → Int → ℝ) else ∑ k' ∈ Ico 0 c.s.nZeta, ∑ l' ∈ Ico 0 c.s.nThetaReduced,
        pointSumA c jF' m k' (torSumsA c x jF' m k') l') A (idxKl c c.r.nsMinF jF k + l) =
      ∑ k' ∈ Ico 0 c.s.nZeta, ∑ l' ∈ Ico 0 c.s.nThetaReduced, if idxKl c c.r.nsMinF jF k + l = idxKl c c.r.nsMinF jF' k' + l' then
        (if ¬ jF' < jMin m ∧ (c.r.nsMinF ≤ jF' ∧ jF' < c.r.nsMaxFIncludingLcfs) then
          gValA a (torSumsA c x jF' m k') (polAt c m l') * conFactor c jF' m else 0) else 0 := by
    intro jF' _ m _
    split
    · rename_i hlt
      simp [hlt]
    · rename_i hlt
      simp only [Finset.sum_apply]
      refine Finset.sum_congr rfl fun k' _ => Finset.sum_congr rfl fun l' _ => ?_
      rw [pointSumA_con _ _ _ _ _ _ A a hA]
      by_cases hh : c.r.nsMinF ≤ jF' ∧ jF' < c.r.nsMaxFIncludingLcfs
      · simp [hlt, hh]
      · rw [if_neg (fun h => hh h.1),
          if_neg (show ¬ (¬ jF' < jMin m ∧ (c.r.nsMinF ≤ jF' ∧ jF' < c.r.nsMaxFIncludingLcfs)) from fun h => hh h.2)]
        simp
  rw [Finset.sum_congr rfl fun jF' hj' => Finset.sum_congr rfl fun m hm => e1 jF' hj' m hm, Finset.sum_comm]
  rw [Finset.sum_congr rfl fun m _ => pick c.r.nsMinF c.r.nsMinF1 c.r.nsMaxF1 (fun jF' k' l' =>
    if ¬ jF' < jMin m ∧ (c.r.nsMinF ≤ jF' ∧ jF' < c.r.nsMaxFIncludingLcfs) then
          gValA a (torSumsA c x jF' m k') (polAt c m l') * conFactor c jF' m else 0) hj hk hl ht]
  have hS : ∀ e, Transform.Spec.modes c.s.mpol jF e = (Ico 0 c.s.mpol).filter (fun m => ¬ jF < jMin m ∧ isEven m = e) := by
    intro e
    ext m
    rw [Finset.mem_filter, mode_mem e h0]
  rw [hS, hS, Finset.sum_filter, Finset.sum_filter, Finset.mul_sum, ← Finset.sum_add_distrib]
  refine Finset.sum_congr rfl fun m _ => ?_
  unfold conFactor
  rw [torSumsA_eq, gValA_sum]
  by_cases h1 : jF < jMin m
  · simp [h1]
  · cases h2 : isEven m
    · simp [h1, hc, Finset.sum_mul, Finset.mul_sum]
      exact Finset.sum_congr rfl fun n _ => by ring
    · simp [h1, hc, Finset.sum_mul]
      exact Finset.sum_congr rfl fun n _ => by ring

/-- what a mode adds to each array is its value or derivative at the grid point -/
theorem mode_valuesA (h : GoodP c) (X : CoefA → ℝ) {m n k l : Int} (m0 : 0 ≤ m) (m1 : m < c.s.mpol) (n0 : 0 ≤ n) (n1 : n ≤ c.s.ntor)
    (hk : 0 ≤ k ∧ k < c.s.nZeta) (hl : 0 ≤ l ∧ l < c.s.nThetaReduced) :
    let y := torTermA X (torAt c k n)
    let p := polAt c m l
    let θ := Transform.Spec.gridTheta c.s l
    let φ := Transform.Spec.gridPhi c.s k
    gValA .r1 y p = oddMode c.s.nfp m n (X .rsc) (X .rcs) θ φ ∧
    HasDerivAt (fun θ => oddMode c.s.nfp m n (X .rsc) (X .rcs) θ φ) (gValA .ru y p) θ ∧
    HasDerivAt (fun φ => oddMode c.s.nfp m n (X .rsc) (X .rcs) θ φ) (gValA .rv y p) φ ∧
    gValA .z1 y p = evenMode c.s.nfp m n (X .zcc) (X .zss) θ φ ∧
    HasDerivAt (fun θ => evenMode c.s.nfp m n (X .zcc) (X .zss) θ φ) (gValA .zu y p) θ ∧
    HasDerivAt (fun φ => evenMode c.s.nfp m n (X .zcc) (X .zss) θ φ) (gValA .zv y p) φ ∧
    HasDerivAt (fun θ => evenMode c.s.nfp m n (X .lcc) (X .lss) θ φ) (gValA .lu y p) θ ∧
    HasDerivAt (fun φ => evenMode c.s.nfp m n (X .lcc) (X .lss) θ φ) (-gValA .lv y p) φ := by
  intro y p θ φ
  have hy : torAt c k n = torEntry c.s scale c.s.nfp n k := torAt_eq h.toGood hk.1 hk.2 n0 n1
  have hp : polAt c m l = polEntry c.s scale m l := polAt_eq h m0 m1 hl.1 hl.2
  have hθ : 2 * Real.pi * l / c.s.nThetaEven = θ := theta_eq h l
  have hφ : (n : ℝ) * (2 * Real.pi * k / c.s.nZeta) = n * c.s.nfp * φ := zeta_eq h n k
  have d1 := cos_deriv m θ
  have d2 := sin_deriv m θ
  have d3 := cos_deriv (n * c.s.nfp) φ
  have d4 := sin_deriv (n * c.s.nfp) φ
  have E1 : ∀ a b : ℝ, HasDerivAt (fun θ => evenMode c.s.nfp m n a b θ φ) (scale m * scale n *
      (a * (-m * Real.sin (m * θ)) * Real.cos (n * c.s.nfp * φ) + b * (m * Real.cos (m * θ)) * Real.sin (n * c.s.nfp * φ))) θ :=
    fun a b => (((d1.const_mul a).mul_const _).fun_add ((d2.const_mul b).mul_const _)).const_mul _
  have E2 : ∀ a b : ℝ, HasDerivAt (fun φ => evenMode c.s.nfp m n a b θ φ) (scale m * scale n *
      (a * Real.cos (m * θ) * (-(n * c.s.nfp) * Real.sin (n * c.s.nfp * φ)) +
        b * Real.sin (m * θ) * (n * c.s.nfp * Real.cos (n * c.s.nfp * φ)))) φ :=
    fun a b => ((d3.const_mul (a * Real.cos (m * θ))).fun_add (d4.const_mul (b * Real.sin (m * θ)))).const_mul _
  have O1 : ∀ a b : ℝ, HasDerivAt (fun θ => oddMode c.s.nfp m n a b θ φ) (scale m * scale n *
      (a * (m * Real.cos (m * θ)) * Real.cos (n * c.s.nfp * φ) + b * (-m * Real.sin (m * θ)) * Real.sin (n * c.s.nfp * φ))) θ :=
    fun a b => (((d2.const_mul a).mul_const _).fun_add ((d1.const_mul b).mul_const _)).const_mul _
  have O2 : ∀ a b : ℝ, HasDerivAt (fun φ => oddMode c.s.nfp m n a b θ φ) (scale m * scale n *
      (a * Real.sin (m * θ) * (-(n * c.s.nfp) * Real.sin (n * c.s.nfp * φ)) +
        b * Real.cos (m * θ) * (n * c.s.nfp * Real.cos (n * c.s.nfp * φ)))) φ :=
    fun a b => ((d3.const_mul (a * Real.sin (m * θ))).fun_add (d4.const_mul (b * Real.cos (m * θ)))).const_mul _
  refine ⟨?_, (O1 _ _).congr_deriv ?_, (O2 _ _).congr_deriv ?_, ?_, (E1 _ _).congr_deriv ?_, (E2 _ _).congr_deriv ?_,
    (E1 _ _).congr_deriv ?_, (E2 _ _).congr_deriv ?_⟩ <;>
  · show _ = _
    simp only [y, p, hy, hp, gValA, torTermA, torEntry, polEntry, hθ, hφ, evenMode, oddMode]
    ring

end Verif.Asym
