import Verif.Asym.Reflect

/-!
# The antisymmetric force transform is the transpose of the antisymmetric geometry transform
-/
namespace Verif.Asym
open Verif Verif.Fourier Partition Finset Transform

variable {c : Ctx}

/-- what a plane adds to a coefficient -/
noncomputable def fValA (a : CoefA) (y : SlotA → ℝ) (t : TorEntry) : ℝ :=
  match a with
  | .rsc => y .rmksc * t.cosnv + y .rmksc_n * t.sinnvn
  | .rcs => y .rmkcs * t.sinnv + y .rmkcs_n * t.cosnvn
  | .zcc => y .zmkcc * t.cosnv + y .zmkcc_n * t.sinnvn
  | .zss => y .zmkss * t.sinnv + y .zmkss_n * t.cosnvn
  | .lcc => y .lmkcc * t.cosnv + y .lmkcc_n * t.sinnvn
  | .lss => y .lmkss * t.sinnv + y .lmkss_n * t.cosnvn

/-- the coefficients of `R` and `Z` -/
def CoefA.isRZ : CoefA → Bool
  | .lcc | .lss => false
  | _ => true

noncomputable def rzSumA (c : Ctx) (jF m k n : Int) (y : SlotA → ℝ) : CoefA → Int → ℝ :=
  let t := torAt c k n
  let i := idxMn c c.r.nsMinF jF m n
  single .rsc i (y .rmksc * t.cosnv + y .rmksc_n * t.sinnvn) + single .rcs i (y .rmkcs * t.sinnv + y .rmkcs_n * t.cosnvn) +
    single .zcc i (y .zmkcc * t.cosnv + y .zmkcc_n * t.sinnvn) + single .zss i (y .zmkss * t.sinnv + y .zmkss_n * t.cosnvn)

noncomputable def lSumA (c : Ctx) (jF m k n : Int) (y : SlotA → ℝ) : CoefA → Int → ℝ :=
  let t := torAt c k n
  let i := idxMn c c.r.nsMinF jF m n
  single .lcc i (y .lmkcc * t.cosnv + y .lmkcc_n * t.sinnvn) + single .lss i (y .lmkss * t.sinnv + y .lmkss_n * t.cosnvn)

theorem rzSumA_apply (jF m k n : Int) (y : SlotA → ℝ) (a : CoefA) (i : Int) :
    rzSumA c jF m k n y a i = if i = idxMn c c.r.nsMinF jF m n then (if a.isRZ then fValA a y (torAt c k n) else 0) else 0 := by
  unfold rzSumA
  by_cases h : i = idxMn c c.r.nsMinF jF m n <;> cases a <;>
    simp [single_apply, h, CoefA.isRZ, fValA]

theorem lSumA_apply (jF m k n : Int) (y : SlotA → ℝ) (a : CoefA) (i : Int) :
    lSumA c jF m k n y a i = if i = idxMn c c.r.nsMinF jF m n then (if a.isRZ then 0 else fValA a y (torAt c k n)) else 0 := by
  unfold lSumA
  by_cases h : i = idxMn c c.r.nsMinF jF m n <;> cases a <;>
    simp [single_apply, h, CoefA.isRZ, fValA]

theorem modeAdd_eq (a : CoefA) (jF m : Int) (v : Int → ℝ) (f : CoefA → Int → ℝ) :
    modeAdd c a (idxMn c c.r.nsMinF jF m 0) v f = f + ∑ n ∈ Ico 0 (c.s.ntor + 1), single a (idxMn c c.r.nsMinF jF m n) (v n) := by
  unfold modeAdd
  refine loop_add _ _ (fun n f _ _ => ?_) f
  rw [addTo_eq]
  unfold idxMn
  rw [add_zero]

theorem addRZA_eq (jF m k : Int) (y : SlotA → ℝ) (f : CoefA → Int → ℝ) :
    addRZA c jF m k y f = f + ∑ n ∈ Ico 0 (c.s.ntor + 1), rzSumA c jF m k n y := by
  unfold addRZA rzSumA
  dsimp only
  simp only [modeAdd_eq, Finset.sum_add_distrib]
  abel

theorem addLA_eq (jF m k : Int) (y : SlotA → ℝ) (f : CoefA → Int → ℝ) :
    addLA c jF m k y f = f + ∑ n ∈ Ico 0 (c.s.ntor + 1), lSumA c jF m k n y := by
  unfold addLA lSumA
  dsimp only
  simp only [modeAdd_eq, Finset.sum_add_distrib]
  abel

/-- the force transform as a sum -/
theorem forcesToFourierA_eq (d : FArr → Bool → Int → ℝ) : forcesToFourierA c d =
    (∑ jF ∈ Ico c.r.nsMinF (jMaxRZ c), ∑ m ∈ Ico 0 (mMax c jF), ∑ n ∈ Ico 0 (c.s.ntor + 1), ∑ k ∈ Ico 0 c.s.nZeta,
      (rzSumA c jF m k n (polSumsA c d jF m k) + if 1 ≤ jF then lSumA c jF m k n (polSumsA c d jF m k) else 0)) +
    ∑ jF ∈ Ico (jMaxRZ c) c.r.nsMaxFIncludingLcfs, ∑ m ∈ Ico 0 c.s.mpol, ∑ n ∈ Ico 0 (c.s.ntor + 1), ∑ k ∈ Ico 0 c.s.nZeta,
      lSumA c jF m k n (polSumsA c d jF m k) := by
  unfold forcesToFourierA
  dsimp only
  rw [loop_add (lo := jMaxRZ c) (v := fun jF => ∑ m ∈ Ico 0 c.s.mpol, ∑ n ∈ Ico 0 (c.s.ntor + 1), ∑ k ∈ Ico 0 c.s.nZeta,
      lSumA c jF m k n (polSumsA c d jF m k))]
  · congr 1
    rw [loop_add (v := fun jF => ∑ m ∈ Ico 0 (mMax c jF), ∑ n ∈ Ico 0 (c.s.ntor + 1), ∑ k ∈ Ico 0 c.s.nZeta,
      (rzSumA c jF m k n (polSumsA c d jF m k) + if 1 ≤ jF then lSumA c jF m k n (polSumsA c d jF m k) else 0)),
      show (fun (_ : CoefA) (_ : Int) => (0:ℝ)) = 0 from rfl, zero_add]
    intro jF f _ _
    refine loop_add _ _ ?_ f
    intro m f _ _
    rw [Finset.sum_comm]
    refine loop_add _ _ ?_ f
    intro k f _ _
    rw [addRZA_eq, Finset.sum_add_distrib]
    split
    · rw [addLA_eq, add_assoc]
    · rw [Finset.sum_const_zero, add_zero]
  · intro jF f _ _
    refine loop_add _ _ ?_ f
    intro m f _ _
    rw [Finset.sum_comm]
    refine loop_add _ _ ?_ f
    intro k f _ _
    exact addLA_eq _ _ _ _ _

/-- a force coefficient -/
theorem coefA_apply (hp : 1 ≤ c.s.mpol) (d : FArr → Bool → Int → ℝ) (a : CoefA) {jF m n : Int}
    (hm0 : 0 ≤ m) (hm1 : m < c.s.mpol) (hn : 0 ≤ n ∧ n < c.s.ntor + 1) :
    forcesToFourierA c d a (idxMn c c.r.nsMinF jF m n) =
      if (c.r.nsMinF ≤ jF ∧ jF < jMaxRZ c ∧ m < mMax c jF ∧ (a.isRZ ∨ 1 ≤ jF)) ∨
          (jMaxRZ c ≤ jF ∧ jF < c.r.nsMaxFIncludingLcfs ∧ a.isRZ = false) then
        ∑ k ∈ Ico 0 c.s.nZeta, fValA a (polSumsA c d jF m k) (torAt c k n)
      else 0 := by
  rw [forcesToFourierA_eq]
  simp only [Pi.add_apply, Finset.sum_apply]
  have e1 : ∀ jF' m' n' k, (rzSumA c jF' m' k n' (polSumsA c d jF' m' k) + if 1 ≤ jF' then lSumA c jF' m' k n' (polSumsA c d jF' m' k) else 0) a
        (idxMn c c.r.nsMinF jF m n) = if idxMn c c.r.nsMinF jF m n = idxMn c c.r.nsMinF jF' m' n' then
          (if a.isRZ ∨ 1 ≤ jF' then fValA a (polSumsA c d jF' m' k) (torAt c k n') else 0) else 0 := by
    intro jF' m' n' k
    rw [Pi.add_apply, Pi.add_apply, rzSumA_apply]
    by_cases hj : 1 ≤ jF'
    · rw [if_pos hj, lSumA_apply]
      cases ha : a.isRZ <;> split <;> simp [hj]
    · rw [if_neg hj]
      cases ha : a.isRZ <;> split <;> simp [hj]
  simp only [← Pi.add_apply, e1, lSumA_apply]
  have e2 : ∀ (P : Prop) [Decidable P] (f : Int → ℝ), ∑ k ∈ Ico 0 c.s.nZeta, (if P then f k else 0) =
      if P then ∑ k ∈ Ico 0 c.s.nZeta, f k else 0 := by
    intro P _ f; split <;> simp
  simp only [e2]
  rw [pickMode c.r.nsMinF c.r.nsMinF (jMaxRZ c) (mMax c) (mMax_le hp) _ hm0 hm1 hn,
    pickMode c.r.nsMinF (jMaxRZ c) c.r.nsMaxFIncludingLcfs (fun _ => c.s.mpol) (fun _ => le_refl _) _ hm0 hm1 hn]
  have e3 : ∀ f : Int → ℝ, ∑ k ∈ Ico 0 c.s.nZeta, (if a.isRZ then 0 else f k) =
      if a.isRZ then 0 else ∑ k ∈ Ico 0 c.s.nZeta, f k := by
    intro f; split <;> simp
  rw [e3]
  by_cases h1 : (c.r.nsMinF ≤ jF ∧ jF < jMaxRZ c) ∧ m < mMax c jF
  · rw [if_pos h1, if_neg (show ¬ ((jMaxRZ c ≤ jF ∧ jF < c.r.nsMaxFIncludingLcfs) ∧ m < c.s.mpol) by omega), add_zero]
    by_cases h2 : a.isRZ ∨ 1 ≤ jF
    · rw [if_pos h2, if_pos (Or.inl ⟨h1.1.1, h1.1.2, h1.2, h2⟩)]
    · rw [if_neg h2, if_neg]
      rintro (h | h)
      · exact h2 h.2.2.2
      · omega
  · rw [if_neg h1, zero_add]
    by_cases h2 : (jMaxRZ c ≤ jF ∧ jF < c.r.nsMaxFIncludingLcfs) ∧ m < c.s.mpol
    · rw [if_pos h2]
      cases ha : a.isRZ
      · simp [h2.1.1, h2.1.2]
      · have : ¬ jF < jMaxRZ c := by omega
        simp [this]
    · rw [if_neg h2, if_neg]
      rintro (h | h)
      · exact h1 ⟨⟨h.1, h.2.1⟩, h.2.2.1⟩
      · exact h2 ⟨⟨h.1, h.2.1⟩, hm1⟩

/-- linear in the plane sums -/
theorem fValA_sum (a : CoefA) (S : Finset Int) (y : Int → SlotA → ℝ) (t : TorEntry) :
    fValA a (fun q => ∑ l ∈ S, y l q) t = ∑ l ∈ S, fValA a (y l) t := by
  cases a <;> simp only [fValA, Finset.sum_mul, Finset.sum_add_distrib]

/-- power of the forces of a point along the contribution of a mode, `R` and `Z` -/
theorem point_rzA (xm : ℝ) (F : FArr → ℝ) (p : PolEntry) (t : TorEntry) (ξ : CoefA → ℝ) (w : ℝ)
    (hp : p.cosmui = w * p.cosmu ∧ p.sinmui = w * p.sinmu ∧ p.cosmumi = w * p.cosmum ∧ p.sinmumi = w * p.sinmum) :
    fValA .rsc (polTermA xm F p) t * ξ .rsc + fValA .rcs (polTermA xm F p) t * ξ .rcs + fValA .zcc (polTermA xm F p) t * ξ .zcc +
      fValA .zss (polTermA xm F p) t * ξ .zss =
    w * (F .armn * gValA .r1 (torTermA ξ t) p + F .brmn * gValA .ru (torTermA ξ t) p - F .crmn * gValA .rv (torTermA ξ t) p +
      (F .azmn * gValA .z1 (torTermA ξ t) p + F .bzmn * gValA .zu (torTermA ξ t) p - F .czmn * gValA .zv (torTermA ξ t) p) +
      (F .frcon * (xm * gValA .r1 (torTermA ξ t) p) + F .fzcon * (xm * gValA .z1 (torTermA ξ t) p))) := by
  obtain ⟨h1, h2, h3, h4⟩ := hp
  simp only [fValA, polTermA, gValA, torTermA, h1, h2, h3, h4]
  ring

theorem point_lA (xm : ℝ) (F : FArr → ℝ) (p : PolEntry) (t : TorEntry) (ξ : CoefA → ℝ) (w : ℝ)
    (hp : p.cosmui = w * p.cosmu ∧ p.sinmui = w * p.sinmu ∧ p.cosmumi = w * p.cosmum ∧ p.sinmumi = w * p.sinmum) :
    fValA .lcc (polTermA xm F p) t * ξ .lcc + fValA .lss (polTermA xm F p) t * ξ .lss =
    w * (F .blmn * gValA .lu (torTermA ξ t) p + F .clmn * gValA .lv (torTermA ξ t) p) := by
  obtain ⟨h1, h2, h3, h4⟩ := hp
  simp only [fValA, polTermA, gValA, torTermA, h1, h2, h3, h4]
  ring

theorem gValA_zero (a : GArr) (p : PolEntry) (t : TorEntry) (ξ : CoefA → ℝ) (h : ∀ a, ξ a = 0) : gValA a (torTermA ξ t) p = 0 := by
  cases a <;> simp [gValA, torTermA, h]

/-- displacement of a surface: `ξ a m n` -/
theorem surface_rzA (h : GoodP c) (d : FArr → Bool → Int → ℝ) (ξ : CoefA → Int → Int → ℝ) {jF : Int}
    (hj : c.r.nsMinF ≤ jF ∧ jF < jMaxRZ c) (h0 : 0 ≤ jF) (hax : jF = 0 → ∀ a m n, 1 ≤ m → ξ a m n = 0) :
    ∑ m ∈ Ico 0 c.s.mpol, ∑ n ∈ Ico 0 (c.s.ntor + 1), (
      forcesToFourierA c d .rsc (idxMn c c.r.nsMinF jF m n) * ξ .rsc m n +
      forcesToFourierA c d .rcs (idxMn c c.r.nsMinF jF m n) * ξ .rcs m n +
      forcesToFourierA c d .zcc (idxMn c c.r.nsMinF jF m n) * ξ .zcc m n +
      forcesToFourierA c d .zss (idxMn c c.r.nsMinF jF m n) * ξ .zss m n) =
    ∑ k ∈ Ico 0 c.s.nZeta, ∑ l ∈ Ico 0 c.s.nThetaReduced, pw c l *
      ∑ e : Bool,
        let F := fun a => d a e (idxKl c c.r.nsMinF jF k + l)
        let g := fun a => ∑ m ∈ Transform.Spec.modes c.s.mpol jF e, ∑ n ∈ Ico 0 (c.s.ntor + 1),
          gValA a (torTermA (fun a => ξ a m n) (torAt c k n)) (polAt c m l)
        let q := fun a => ∑ m ∈ Transform.Spec.modes c.s.mpol jF e, ∑ n ∈ Ico 0 (c.s.ntor + 1),
          c.xmpq m * gValA a (torTermA (fun a => ξ a m n) (torAt c k n)) (polAt c m l)
        F .armn * g .r1 + F .brmn * g .ru - F .crmn * g .rv + (F .azmn * g .z1 + F .bzmn * g .zu - F .czmn * g .zv) +
          (F .frcon * q .r1 + F .fzcon * q .z1) := by
  have hp := h.mpol
  have key : ∀ m ∈ Ico 0 c.s.mpol, ∀ n ∈ Ico 0 (c.s.ntor + 1), (
      forcesToFourierA c d .rsc (idxMn c c.r.nsMinF jF m n) * ξ .rsc m n +
      forcesToFourierA c d .rcs (idxMn c c.r.nsMinF jF m n) * ξ .rcs m n +
      forcesToFourierA c d .zcc (idxMn c c.r.nsMinF jF m n) * ξ .zcc m n +
      forcesToFourierA c d .zss (idxMn c c.r.nsMinF jF m n) * ξ .zss m n) =
      ∑ k ∈ Ico 0 c.s.nZeta, ∑ l ∈ Ico 0 c.s.nThetaReduced,
        let F := fun a => d a (isEven m) (idxKl c c.r.nsMinF jF k + l)
        let g := fun a => gValA a (torTermA (fun a => ξ a m n) (torAt c k n)) (polAt c m l)
        pw c l * (F .armn * g .r1 + F .brmn * g .ru - F .crmn * g .rv + (F .azmn * g .z1 + F .bzmn * g .zu - F .czmn * g .zv) +
          (F .frcon * (c.xmpq m * g .r1) + F .fzcon * (c.xmpq m * g .z1))) := by
    intro m hm n hn
    rw [Finset.mem_Ico] at hm hn
    by_cases hz : jF = 0 ∧ 1 ≤ m
    · have hξ : ∀ a, ξ a m n = 0 := fun a => hax hz.1 a m n hz.2
      have hg : ∀ a t p, gValA a (torTermA (fun a => ξ a m n) t) p = 0 := fun a t p => gValA_zero a p t _ hξ
      simp only [hg]
      simp [hξ]
    · have hmM : m < mMax c jF := by unfold mMax; split <;> omega
      have hf : ∀ a, CoefA.isRZ a = true → forcesToFourierA c d a (idxMn c c.r.nsMinF jF m n) =
          ∑ k ∈ Ico 0 c.s.nZeta, ∑ l ∈ Ico 0 c.s.nThetaReduced,
            fValA a (polTermA (c.xmpq m) (fun a => d a (isEven m) (idxKl c c.r.nsMinF jF k + l)) (polAt c m l)) (torAt c k n) := by
        intro a ha
        rw [coefA_apply hp d a hm.1 hm.2 hn, if_pos (Or.inl ⟨hj.1, hj.2, hmM, Or.inl ha⟩)]
        refine Finset.sum_congr rfl fun k _ => ?_
        rw [polSumsA_eq, fValA_sum]
      rw [hf _ rfl, hf _ rfl, hf _ rfl, hf _ rfl]
      simp only [Finset.sum_mul, ← Finset.sum_add_distrib]
      refine Finset.sum_congr rfl fun k _ => Finset.sum_congr rfl fun l hl => ?_
      rw [Finset.mem_Ico] at hl
      exact point_rzA (c.xmpq m) _ _ _ (fun a => ξ a m n) _ (pol_weights h hm.1 hm.2 hl.1 hl.2)
  rw [Finset.sum_congr rfl fun m hm => Finset.sum_congr rfl fun n hn => key m hm n hn, swap4]
  refine Finset.sum_congr rfl fun k _ => Finset.sum_congr rfl fun l _ => ?_
  have hz : ∀ a, ∀ m ∈ Ico 0 c.s.mpol, jF < jMin m → ∑ n ∈ Ico 0 (c.s.ntor + 1),
      gValA a (torTermA (fun a => ξ a m n) (torAt c k n)) (polAt c m l) = 0 := by
    intro a m hm hlt
    rw [Finset.mem_Ico] at hm
    have : jF = 0 ∧ 1 ≤ m := by unfold jMin at hlt; split at hlt <;> omega
    exact Finset.sum_eq_zero fun n _ => gValA_zero _ _ _ _ fun a => hax this.1 a m n this.2
  have hz' : ∀ a, ∀ m ∈ Ico 0 c.s.mpol, jF < jMin m → ∑ n ∈ Ico 0 (c.s.ntor + 1),
      c.xmpq m * gValA a (torTermA (fun a => ξ a m n) (torAt c k n)) (polAt c m l) = 0 := by
    intro a m hm hlt
    rw [← Finset.mul_sum, hz a m hm hlt, mul_zero]
  simp only [Finset.sum_add_distrib, Finset.sum_sub_distrib]
  rw [parity_sum h0 _ _ (hz .r1), parity_sum h0 _ _ (hz .ru), parity_sum h0 _ _ (hz .rv), parity_sum h0 _ _ (hz .z1),
    parity_sum h0 _ _ (hz .zu), parity_sum h0 _ _ (hz .zv), parity_sum h0 _ _ (hz' .r1), parity_sum h0 _ _ (hz' .z1)]
  simp only [← Finset.sum_add_distrib, ← Finset.sum_sub_distrib, Finset.mul_sum]

theorem surface_lA (h : GoodP c) (d : FArr → Bool → Int → ℝ) (ξ : CoefA → Int → Int → ℝ) {jF : Int}
    (hj : c.r.nsMinF ≤ jF ∧ (jF < jMaxRZ c ∨ jF < c.r.nsMaxFIncludingLcfs)) (h0 : 1 ≤ jF) :
    ∑ m ∈ Ico 0 c.s.mpol, ∑ n ∈ Ico 0 (c.s.ntor + 1), (
      forcesToFourierA c d .lcc (idxMn c c.r.nsMinF jF m n) * ξ .lcc m n +
      forcesToFourierA c d .lss (idxMn c c.r.nsMinF jF m n) * ξ .lss m n) =
    ∑ k ∈ Ico 0 c.s.nZeta, ∑ l ∈ Ico 0 c.s.nThetaReduced, pw c l *
      ∑ e : Bool,
        let F := fun a => d a e (idxKl c c.r.nsMinF jF k + l)
        let g := fun a => ∑ m ∈ Transform.Spec.modes c.s.mpol jF e, ∑ n ∈ Ico 0 (c.s.ntor + 1),
          gValA a (torTermA (fun a => ξ a m n) (torAt c k n)) (polAt c m l)
        F .blmn * g .lu + F .clmn * g .lv := by
  have hp := h.mpol
  have key : ∀ m ∈ Ico 0 c.s.mpol, ∀ n ∈ Ico 0 (c.s.ntor + 1), (
      forcesToFourierA c d .lcc (idxMn c c.r.nsMinF jF m n) * ξ .lcc m n +
      forcesToFourierA c d .lss (idxMn c c.r.nsMinF jF m n) * ξ .lss m n) =
      ∑ k ∈ Ico 0 c.s.nZeta, ∑ l ∈ Ico 0 c.s.nThetaReduced,
        let F := fun a => d a (isEven m) (idxKl c c.r.nsMinF jF k + l)
        let g := fun a => gValA a (torTermA (fun a => ξ a m n) (torAt c k n)) (polAt c m l)
        pw c l * (F .blmn * g .lu + F .clmn * g .lv) := by
    intro m hm n hn
    rw [Finset.mem_Ico] at hm hn
    have hmM : m < mMax c jF := by unfold mMax; split <;> omega
    have hf : ∀ a, CoefA.isRZ a = false → forcesToFourierA c d a (idxMn c c.r.nsMinF jF m n) =
        ∑ k ∈ Ico 0 c.s.nZeta, ∑ l ∈ Ico 0 c.s.nThetaReduced,
          fValA a (polTermA (c.xmpq m) (fun a => d a (isEven m) (idxKl c c.r.nsMinF jF k + l)) (polAt c m l)) (torAt c k n) := by
      intro a ha
      rw [coefA_apply hp d a hm.1 hm.2 hn, if_pos]
      · refine Finset.sum_congr rfl fun k _ => ?_
        rw [polSumsA_eq, fValA_sum]
      · by_cases e : jF < jMaxRZ c
        · exact Or.inl ⟨hj.1, e, hmM, Or.inr h0⟩
        · exact Or.inr ⟨by omega, by omega, ha⟩
    rw [hf _ rfl, hf _ rfl]
    simp only [Finset.sum_mul, ← Finset.sum_add_distrib]
    refine Finset.sum_congr rfl fun k _ => Finset.sum_congr rfl fun l hl => ?_
    rw [Finset.mem_Ico] at hl
    exact point_lA (c.xmpq m) _ _ _ (fun a => ξ a m n) _ (pol_weights h hm.1 hm.2 hl.1 hl.2)
  rw [Finset.sum_congr rfl fun m hm => Finset.sum_congr rfl fun n hn => key m hm n hn, swap4]
  refine Finset.sum_congr rfl fun k _ => Finset.sum_congr rfl fun l _ => ?_
  have hz : ∀ a, ∀ m ∈ Ico 0 c.s.mpol, jF < jMin m → ∑ n ∈ Ico 0 (c.s.ntor + 1),
      gValA a (torTermA (fun a => ξ a m n) (torAt c k n)) (polAt c m l) = 0 := by
    intro a m hm hlt
    unfold jMin at hlt
    split at hlt <;> omega
  simp only [Finset.sum_add_distrib]
  rw [parity_sum (by omega) _ _ (hz .lu), parity_sum (by omega) _ _ (hz .lv)]
  simp only [← Finset.sum_add_distrib, Finset.mul_sum]

end Verif.Asym
