import Verif.Transform.Agree
import Verif.Transform.Series

/-!
# The force transform is the transpose of the geometry transform
-/
namespace Verif.Transform
open Verif Verif.Fourier Partition Finset

variable {c : Ctx}

/-- what a plane adds to a coefficient -/
noncomputable def fVal (a : Coef) (y : Slot → ℝ) (t : TorEntry) : ℝ :=
  match a with
  | .rcc => y .rmkcc * t.cosnv + y .rmkcc_n * t.sinnvn
  | .rss => y .rmkss * t.sinnv + y .rmkss_n * t.cosnvn
  | .zsc => y .zmksc * t.cosnv + y .zmksc_n * t.sinnvn
  | .zcs => y .zmkcs * t.sinnv + y .zmkcs_n * t.cosnvn
  | .lsc => y .lmksc * t.cosnv + y .lmksc_n * t.sinnvn
  | .lcs => y .lmkcs * t.sinnv + y .lmkcs_n * t.cosnvn

/-- the coefficients of `R` and `Z` -/
def Coef.isRZ : Coef → Bool
  | .lsc | .lcs => false
  | _ => true

theorem rzSum_apply (jF m k n : Int) (y : Slot → ℝ) (a : Coef) (i : Int) :
    rzSum c jF m k n y a i = if i = idxMn c c.r.nsMinF jF m n then (if a.isRZ then fVal a y (torAt c k n) else 0) else 0 := by
  unfold rzSum
  by_cases h : i = idxMn c c.r.nsMinF jF m n <;> cases a <;>
    simp [single_apply, h, Coef.isRZ, fVal]

theorem lSum_apply (jF m k n : Int) (y : Slot → ℝ) (a : Coef) (i : Int) :
    lSum c jF m k n y a i = if i = idxMn c c.r.nsMinF jF m n then (if a.isRZ then 0 else fVal a y (torAt c k n)) else 0 := by
  unfold lSum
  by_cases h : i = idxMn c c.r.nsMinF jF m n <;> cases a <;>
    simp [single_apply, h, Coef.isRZ, fVal]

theorem idxMn_inj {j0 jF jF' m m' n n' : Int} (m0 : 0 ≤ m) (m1 : m < c.s.mpol) (m0' : 0 ≤ m') (m1' : m' < c.s.mpol)
    (n0 : 0 ≤ n) (n1 : n < c.s.ntor + 1) (n0' : 0 ≤ n') (n1' : n' < c.s.ntor + 1)
    (h : idxMn c j0 jF m n = idxMn c j0 jF' m' n') : jF = jF' ∧ m = m' ∧ n = n' := by
  unfold idxMn at h
  obtain ⟨h1, h2⟩ := flat_inj n0 n1 n0' n1' h
  obtain ⟨h3, h4⟩ := flat_inj m0 m1 m0' m1' h1
  exact ⟨by omega, h4, h2⟩

/-- a value that is stored at one coefficient only -/
theorem pickMode (j0 jlo jhi : Int) (M : Int → Int) (hM : ∀ j, M j ≤ c.s.mpol) (V : Int → Int → Int → ℝ) {jF m n : Int}
    (hm0 : 0 ≤ m) (hm1 : m < c.s.mpol) (hn : 0 ≤ n ∧ n < c.s.ntor + 1) :
    ∑ jF' ∈ Ico jlo jhi, ∑ m' ∈ Ico 0 (M jF'), ∑ n' ∈ Ico 0 (c.s.ntor + 1),
      (if idxMn c j0 jF m n = idxMn c j0 jF' m' n' then V jF' m' n' else 0) =
      if (jlo ≤ jF ∧ jF < jhi) ∧ m < M jF then V jF m n else 0 := by
  have inj : ∀ jF' m' n', 0 ≤ m' → m' < M jF' → 0 ≤ n' → n' < c.s.ntor + 1 →
      idxMn c j0 jF m n = idxMn c j0 jF' m' n' → jF = jF' ∧ m = m' ∧ n = n' := by
    intro jF' m' n' a1 a2 a3 a4 e
    exact idxMn_inj hm0 hm1 a1 (by have := hM jF'; omega) hn.1 hn.2 a3 a4 e
  split
  · rename_i h
    rw [Finset.sum_eq_single jF, Finset.sum_eq_single m, Finset.sum_eq_single n, if_pos rfl]
    · intro n' hn' hne
      rw [Finset.mem_Ico] at hn'
      exact if_neg fun e => hne (inj jF m n' hm0 h.2 hn'.1 hn'.2 e).2.2.symm
    · intro hh; exact absurd (Finset.mem_Ico.2 hn) hh
    · intro m' hm' hne
      rw [Finset.mem_Ico] at hm'
      refine Finset.sum_eq_zero fun n' hn' => ?_
      rw [Finset.mem_Ico] at hn'
      exact if_neg fun e => hne (inj jF m' n' hm'.1 hm'.2 hn'.1 hn'.2 e).2.1.symm
    · intro hh; exact absurd (Finset.mem_Ico.2 ⟨hm0, h.2⟩) hh
    · intro j' _ hne
      refine Finset.sum_eq_zero fun m' hm' => Finset.sum_eq_zero fun n' hn' => ?_
      rw [Finset.mem_Ico] at hm' hn'
      exact if_neg fun e => hne (inj j' m' n' hm'.1 hm'.2 hn'.1 hn'.2 e).1.symm
    · intro hh; exact absurd (Finset.mem_Ico.2 h.1) hh
  · rename_i h
    refine Finset.sum_eq_zero fun j' hj' => Finset.sum_eq_zero fun m' hm' => Finset.sum_eq_zero fun n' hn' => ?_
    rw [Finset.mem_Ico] at hj' hm' hn'
    refine if_neg fun e => h ?_
    obtain ⟨rfl, rfl, rfl⟩ := inj j' m' n' hm'.1 hm'.2 hn'.1 hn'.2 e
    exact ⟨hj', hm'.2⟩

theorem mMax_le (hp : 1 ≤ c.s.mpol) (j : Int) : mMax c j ≤ c.s.mpol := by unfold mMax; split <;> omega

/-- a force coefficient -/
theorem coef_apply (hp : 1 ≤ c.s.mpol) (d : FArr → Bool → Int → ℝ) (a : Coef) {jF m n : Int}
    (hm0 : 0 ≤ m) (hm1 : m < c.s.mpol) (hn : 0 ≤ n ∧ n < c.s.ntor + 1) :
    forcesToFourierDft c d a (idxMn c c.r.nsMinF jF m n) =
      if (c.r.nsMinF ≤ jF ∧ jF < jMaxRZ c ∧ m < mMax c jF ∧ (a.isRZ ∨ 1 ≤ jF)) ∨
          (jMaxRZ c ≤ jF ∧ jF < c.r.nsMaxFIncludingLcfs ∧ a.isRZ = false) then
        ∑ k ∈ Ico 0 c.s.nZeta, fVal a (polSums c d jF m k) (torAt c k n)
      else 0 := by
  rw [forcesToFourierDft_eq]
  simp only [Pi.add_apply, Finset.sum_apply]
  have e1 : ∀ jF' m' n' k, (rzSum c jF' m' k n' (polSums c d jF' m' k) + if 1 ≤ jF' then lSum c jF' m' k n' (polSums c d jF' m' k) else 0) a
        (idxMn c c.r.nsMinF jF m n) = if idxMn c c.r.nsMinF jF m n = idxMn c c.r.nsMinF jF' m' n' then
          (if a.isRZ ∨ 1 ≤ jF' then fVal a (polSums c d jF' m' k) (torAt c k n') else 0) else 0 := by
    intro jF' m' n' k
    rw [Pi.add_apply, Pi.add_apply, rzSum_apply]
    by_cases hj : 1 ≤ jF'
    · rw [if_pos hj, lSum_apply]
      cases ha : a.isRZ <;> split <;> simp [hj]
    · rw [if_neg hj]
      cases ha : a.isRZ <;> split <;> simp [hj]
  simp only [← Pi.add_apply, e1, lSum_apply]
  have e2 : ∀ (P : Prop) [Decidable P] (f : Int → ℝ), ∑ k ∈ Ico 0 c.s.nZeta, (if P then f k else 0) =
      if P then ∑ k ∈ Ico 0 c.s.nZeta, f k else 0 := by
    intro P _ f; split <;> simp
  simp only [e2]
  rw [pickMode c.r.nsMinF c.r.nsMinF (jMaxRZ c) (mMax c) (mMax_le hp) _ hm0 hm1 hn,
    pickMode c.r.nsMinF (jMaxRZ c) c.r.nsMaxFIncludingLcfs (fun _ => c.s.mpol) (fun _ => le_refl _) _ hm0 hm1 hn]
  have e3 : ∀ f : Int → ℝ, ∑ k ∈ Ico 0 c.s.nZeta, (if a.isRZ then 0 else f k) =
      if a.isRZ then 0 else ∑ k ∈ Ico 0 c.s.nZeta, f k := by
    intro f; split <;> simp
  rw [e3]
  by_cases h1 : (c.r.nsMinF ≤ jF ∧ jF < jMaxRZ c) ∧ m < mMax c jF
  · rw [if_pos h1, if_neg (show ¬ ((jMaxRZ c ≤ jF ∧ jF < c.r.nsMaxFIncludingLcfs) ∧ m < c.s.mpol) by omega), add_zero]
    by_cases h2 : a.isRZ ∨ 1 ≤ jF
    · rw [if_pos h2, if_pos (Or.inl ⟨h1.1.1, h1.1.2, h1.2, h2⟩)]
    · rw [if_neg h2, if_neg]
      rintro (h | h)
      · exact h2 h.2.2.2
      · omega
  · rw [if_neg h1, zero_add]
    by_cases h2 : (jMaxRZ c ≤ jF ∧ jF < c.r.nsMaxFIncludingLcfs) ∧ m < c.s.mpol
    · rw [if_pos h2]
      cases ha : a.isRZ
      · simp [h2.1.1, h2.1.2]
      · have : ¬ jF < jMaxRZ c := by omega
        simp [this]
    · rw [if_neg h2, if_neg]
      rintro (h | h)
      · exact h1 ⟨⟨h.1, h.2.1⟩, h.2.2.1⟩
      · exact h2 ⟨⟨h.1, h.2.1⟩, hm1⟩

/-- linear in the plane sums -/
theorem fVal_sum (a : Coef) (S : Finset Int) (y : Int → Slot → ℝ) (t : TorEntry) :
    fVal a (fun q => ∑ l ∈ S, y l q) t = ∑ l ∈ S, fVal a (y l) t := by
  cases a <;> simp only [fVal, Finset.sum_mul, Finset.sum_add_distrib]

/-- the integration weight that is folded into the poloidal tables -/
noncomputable def pw (c : Ctx) (l : Int) : ℝ :=
  1 / (c.s.nZeta * (c.s.nThetaReduced - 1) : Int) / if l = 0 ∨ l = c.s.nThetaReduced - 1 then 2 else 1

theorem pol_weights (h : GoodP c) {m l : Int} (m0 : 0 ≤ m) (m1 : m < c.s.mpol) (l0 : 0 ≤ l) (l1 : l < c.s.nThetaReduced) :
    let p := polAt c m l
    p.cosmui = pw c l * p.cosmu ∧ p.sinmui = pw c l * p.sinmu ∧ p.cosmumi = pw c l * p.cosmum ∧ p.sinmumi = pw c l * p.sinmum := by
  intro p
  have hp : p = polEntry c.s scale m l := polAt_eq h m0 m1 l0 l1
  have hc : p.cosmui = pw c l * p.cosmu := by
    rw [hp]
    unfold polEntry pw
    dsimp only
    split
    · ring
    · rw [div_one]; ring
  have hz : (l = 0 ∨ l = c.s.nThetaReduced - 1) → p.sinmu = 0 := by
    intro hh
    rw [hp]
    unfold polEntry
    dsimp only
    rw [theta_eq h]
    unfold Spec.gridTheta
    rcases hh with rfl | rfl
    · simp
    · have h2 : (2:ℝ) ≤ c.s.nThetaReduced := by exact_mod_cast h.red
      have h3 : ((c.s.nThetaReduced : ℝ) - 1) ≠ 0 := by intro hh; linarith
      push_cast
      rw [mul_div_assoc, div_self h3, mul_one, Real.sin_int_mul_pi, zero_mul]
  have hsd : p.sinmui = (1 / (c.s.nZeta * (c.s.nThetaReduced - 1) : Int)) * p.sinmu := by
    rw [hp]; unfold polEntry; dsimp only; ring
  have hs : p.sinmui = pw c l * p.sinmu := by
    by_cases e : l = 0 ∨ l = c.s.nThetaReduced - 1
    · rw [hsd, hz e, mul_zero, mul_zero]
    · rw [hsd]; unfold pw; rw [if_neg e, div_one]
  refine ⟨hc, hs, ?_, ?_⟩
  · have e1 : p.cosmumi = m * p.cosmui := by rw [hp]; rfl
    have e2 : p.cosmum = m * p.cosmu := by rw [hp]; rfl
    rw [e1, e2, hc]; ring
  · have e1 : p.sinmumi = -m * p.sinmui := by rw [hp]; rfl
    have e2 : p.sinmum = -m * p.sinmu := by rw [hp]; rfl
    rw [e1, e2, hs]; ring

/-- power of the forces of a point along the contribution of a mode, `R` and `Z` -/
theorem point_rz (xm : ℝ) (F : FArr → ℝ) (p : PolEntry) (t : TorEntry) (ξ : Coef → ℝ) (w : ℝ)
    (hp : p.cosmui = w * p.cosmu ∧ p.sinmui = w * p.sinmu ∧ p.cosmumi = w * p.cosmum ∧ p.sinmumi = w * p.sinmum) :
    fVal .rcc (polTerm xm F p) t * ξ .rcc + fVal .rss (polTerm xm F p) t * ξ .rss + fVal .zsc (polTerm xm F p) t * ξ .zsc +
      fVal .zcs (polTerm xm F p) t * ξ .zcs =
    w * (F .armn * gVal .r1 (torTerm ξ t) p + F .brmn * gVal .ru (torTerm ξ t) p - F .crmn * gVal .rv (torTerm ξ t) p +
      (F .azmn * gVal .z1 (torTerm ξ t) p + F .bzmn * gVal .zu (torTerm ξ t) p - F .czmn * gVal .zv (torTerm ξ t) p) +
      (F .frcon * (xm * gVal .r1 (torTerm ξ t) p) + F .fzcon * (xm * gVal .z1 (torTerm ξ t) p))) := by
  obtain ⟨h1, h2, h3, h4⟩ := hp
  simp only [fVal, polTerm, gVal, torTerm, h1, h2, h3, h4]
  ring

theorem point_l (xm : ℝ) (F : FArr → ℝ) (p : PolEntry) (t : TorEntry) (ξ : Coef → ℝ) (w : ℝ)
    (hp : p.cosmui = w * p.cosmu ∧ p.sinmui = w * p.sinmu ∧ p.cosmumi = w * p.cosmum ∧ p.sinmumi = w * p.sinmum) :
    fVal .lsc (polTerm xm F p) t * ξ .lsc + fVal .lcs (polTerm xm F p) t * ξ .lcs =
    w * (F .blmn * gVal .lu (torTerm ξ t) p + F .clmn * gVal .lv (torTerm ξ t) p) := by
  obtain ⟨h1, h2, h3, h4⟩ := hp
  simp only [fVal, polTerm, gVal, torTerm, h1, h2, h3, h4]
  ring

/-- the two parities together are all modes -/
theorem parity_sum {jF : Int} (h0 : 0 ≤ jF) (F : Bool → ℝ) (G : Int → ℝ)
    (hG : ∀ m ∈ Ico 0 c.s.mpol, jF < jMin m → G m = 0) :
    ∑ e : Bool, F e * ∑ m ∈ Spec.modes c.s.mpol jF e, G m = ∑ m ∈ Ico 0 c.s.mpol, F (isEven m) * G m := by
  have hS : ∀ e, ∑ m ∈ Spec.modes c.s.mpol jF e, G m = ∑ m ∈ Ico 0 c.s.mpol, if isEven m = e then G m else 0 := by
    intro e
    have : Spec.modes c.s.mpol jF e = (Ico 0 c.s.mpol).filter (fun m => ¬ jF < jMin m ∧ isEven m = e) := by
      ext m
      rw [Finset.mem_filter, mode_mem e h0]
    rw [this, Finset.sum_filter]
    refine Finset.sum_congr rfl fun m hm => ?_
    by_cases h1 : jF < jMin m
    · rw [hG m hm h1]; simp
    · simp [h1]
  rw [Fintype.sum_bool, hS, hS, Finset.mul_sum, Finset.mul_sum, ← Finset.sum_add_distrib]
  refine Finset.sum_congr rfl fun m _ => ?_
  cases isEven m <;> simp

theorem gVal_zero (a : GArr) (p : PolEntry) (t : TorEntry) (ξ : Coef → ℝ) (h : ∀ a, ξ a = 0) : gVal a (torTerm ξ t) p = 0 := by
  cases a <;> simp [gVal, torTerm, h]

theorem swap4 (K L M N : Finset Int) (f : Int → Int → Int → Int → ℝ) :
    ∑ m ∈ M, ∑ n ∈ N, ∑ k ∈ K, ∑ l ∈ L, f m n k l = ∑ k ∈ K, ∑ l ∈ L, ∑ m ∈ M, ∑ n ∈ N, f m n k l := by
  have e1 : ∀ m ∈ M, ∑ n ∈ N, ∑ k ∈ K, ∑ l ∈ L, f m n k l = ∑ k ∈ K, ∑ l ∈ L, ∑ n ∈ N, f m n k l := by
    intro m _
    rw [Finset.sum_comm]
    exact Finset.sum_congr rfl fun k _ => Finset.sum_comm
  rw [Finset.sum_congr rfl e1, Finset.sum_comm]
  exact Finset.sum_congr rfl fun k _ => Finset.sum_comm

/-- displacement of a surface: `ξ a m n` -/
theorem surface_rz (h : GoodP c) (d : FArr → Bool → Int → ℝ) (ξ : Coef → Int → Int → ℝ) {jF : Int}
    (hj : c.r.nsMinF ≤ jF ∧ jF < jMaxRZ c) (h0 : 0 ≤ jF) (hax : jF = 0 → ∀ a m n, 1 ≤ m → ξ a m n = 0) :
    ∑ m ∈ Ico 0 c.s.mpol, ∑ n ∈ Ico 0 (c.s.ntor + 1), (
      forcesToFourierDft c d .rcc (idxMn c c.r.nsMinF jF m n) * ξ .rcc m n +
      forcesToFourierDft c d .rss (idxMn c c.r.nsMinF jF m n) * ξ .rss m n +
      forcesToFourierDft c d .zsc (idxMn c c.r.nsMinF jF m n) * ξ .zsc m n +
      forcesToFourierDft c d .zcs (idxMn c c.r.nsMinF jF m n) * ξ .zcs m n) =
    ∑ k ∈ Ico 0 c.s.nZeta, ∑ l ∈ Ico 0 c.s.nThetaReduced, pw c l *
      ∑ e : Bool,
        let F := fun a => d a e (idxKl c c.r.nsMinF jF k + l)
        let g := fun a => ∑ m ∈ Spec.modes c.s.mpol jF e, ∑ n ∈ Ico 0 (c.s.ntor + 1),
          gVal a (torTerm (fun a => ξ a m n) (torAt c k n)) (polAt c m l)
        let q := fun a => ∑ m ∈ Spec.modes c.s.mpol jF e, ∑ n ∈ Ico 0 (c.s.ntor + 1),
          c.xmpq m * gVal a (torTerm (fun a => ξ a m n) (torAt c k n)) (polAt c m l)
        F .armn * g .r1 + F .brmn * g .ru - F .crmn * g .rv + (F .azmn * g .z1 + F .bzmn * g .zu - F .czmn * g .zv) +
          (F .frcon * q .r1 + F .fzcon * q .z1) := by
  have hp := h.mpol
  have key : ∀ m ∈ Ico 0 c.s.mpol, ∀ n ∈ Ico 0 (c.s.ntor + 1), (
      forcesToFourierDft c d .rcc (idxMn c c.r.nsMinF jF m n) * ξ .rcc m n +
      forcesToFourierDft c d .rss (idxMn c c.r.nsMinF jF m n) * ξ .rss m n +
      forcesToFourierDft c d .zsc (idxMn c c.r.nsMinF jF m n) * ξ .zsc m n +
      forcesToFourierDft c d .zcs (idxMn c c.r.nsMinF jF m n) * ξ .zcs m n) =
      ∑ k ∈ Ico 0 c.s.nZeta, ∑ l ∈ Ico 0 c.s.nThetaReduced,
        let F := fun a => d a (isEven m) (idxKl c c.r.nsMinF jF k + l)
        let g := fun a => gVal a (torTerm (fun a => ξ a m n) (torAt c k n)) (polAt c m l)
        pw c l * (F .armn * g .r1 + F .brmn * g .ru - F .crmn * g .rv + (F .azmn * g .z1 + F .bzmn * g .zu - F .czmn * g .zv) +
          (F .frcon * (c.xmpq m * g .r1) + F .fzcon * (c.xmpq m * g .z1))) := by
    intro m hm n hn
    rw [Finset.mem_Ico] at hm hn
    by_cases hz : jF = 0 ∧ 1 ≤ m
    · have hξ : ∀ a, ξ a m n = 0 := fun a => hax hz.1 a m n hz.2
      have hg : ∀ a t p, gVal a (torTerm (fun a => ξ a m n) t) p = 0 := fun a t p => gVal_zero a p t _ hξ
      simp only [hg]
      simp [hξ]
    · have hmM : m < mMax c jF := by unfold mMax; split <;> omega
      have hf : ∀ a, Coef.isRZ a = true → forcesToFourierDft c d a (idxMn c c.r.nsMinF jF m n) =
          ∑ k ∈ Ico 0 c.s.nZeta, ∑ l ∈ Ico 0 c.s.nThetaReduced,
            fVal a (polTerm (c.xmpq m) (fun a => d a (isEven m) (idxKl c c.r.nsMinF jF k + l)) (polAt c m l)) (torAt c k n) := by
        intro a ha
        rw [coef_apply hp d a hm.1 hm.2 hn, if_pos (Or.inl ⟨hj.1, hj.2, hmM, Or.inl ha⟩)]
        refine Finset.sum_congr rfl fun k _ => ?_
        rw [polSums_eq, fVal_sum]
      rw [hf _ rfl, hf _ rfl, hf _ rfl, hf _ rfl]
      simp only [Finset.sum_mul, ← Finset.sum_add_distrib]
      refine Finset.sum_congr rfl fun k _ => Finset.sum_congr rfl fun l hl => ?_
      rw [Finset.mem_Ico] at hl
      exact point_rz (c.xmpq m) _ _ _ (fun a => ξ a m n) _ (pol_weights h hm.1 hm.2 hl.1 hl.2)
  rw [Finset.sum_congr rfl fun m hm => Finset.sum_congr rfl fun n hn => key m hm n hn, swap4]
  refine Finset.sum_congr rfl fun k _ => Finset.sum_congr rfl fun l _ => ?_
  have hz : ∀ a, ∀ m ∈ Ico 0 c.s.mpol, jF < jMin m → ∑ n ∈ Ico 0 (c.s.ntor + 1),
      gVal a (torTerm (fun a => ξ a m n) (torAt c k n)) (polAt c m l) = 0 := by
    intro a m hm hlt
    rw [Finset.mem_Ico] at hm
    have : jF = 0 ∧ 1 ≤ m := by unfold jMin at hlt; split at hlt <;> omega
    exact Finset.sum_eq_zero fun n _ => gVal_zero _ _ _ _ fun a => hax this.1 a m n this.2
  have hz' : ∀ a, ∀ m ∈ Ico 0 c.s.mpol, jF < jMin m → ∑ n ∈ Ico 0 (c.s.ntor + 1),
      c.xmpq m * gVal a (torTerm (fun a => ξ a m n) (torAt c k n)) (polAt c m l) = 0 := by
    intro a m hm hlt
    rw [← Finset.mul_sum, hz a m hm hlt, mul_zero]
  simp only [Finset.sum_add_distrib, Finset.sum_sub_distrib]
  rw [parity_sum h0 _ _ (hz .r1), parity_sum h0 _ _ (hz .ru), parity_sum h0 _ _ (hz .rv), parity_sum h0 _ _ (hz .z1),
    parity_sum h0 _ _ (hz .zu), parity_sum h0 _ _ (hz .zv), parity_sum h0 _ _ (hz' .r1), parity_sum h0 _ _ (hz' .z1)]
  simp only [← Finset.sum_add_distrib, ← Finset.sum_sub_distrib, Finset.mul_sum]

theorem surface_l (h : GoodP c) (d : FArr → Bool → Int → ℝ) (ξ : Coef → Int → Int → ℝ) {jF : Int}
    (hj : c.r.nsMinF ≤ jF ∧ (jF < jMaxRZ c ∨ jF < c.r.nsMaxFIncludingLcfs)) (h0 : 1 ≤ jF) :
    ∑ m ∈ Ico 0 c.s.mpol, ∑ n ∈ Ico 0 (c.s.ntor + 1), (
      forcesToFourierDft c d .lsc (idxMn c c.r.nsMinF jF m n) * ξ .lsc m n +
      forcesToFourierDft c d .lcs (idxMn c c.r.nsMinF jF m n) * ξ .lcs m n) =
    ∑ k ∈ Ico 0 c.s.nZeta, ∑ l ∈ Ico 0 c.s.nThetaReduced, pw c l *
      ∑ e : Bool,
        let F := fun a => d a e (idxKl c c.r.nsMinF jF k + l)
        let g := fun a => ∑ m ∈ Spec.modes c.s.mpol jF e, ∑ n ∈ Ico 0 (c.s.ntor + 1),
          gVal a (torTerm (fun a => ξ a m n) (torAt c k n)) (polAt c m l)
        F .blmn * g .lu + F .clmn * g .lv := by
  have hp := h.mpol
  have key : ∀ m ∈ Ico 0 c.s.mpol, ∀ n ∈ Ico 0 (c.s.ntor + 1), (
      forcesToFourierDft c d .lsc (idxMn c c.r.nsMinF jF m n) * ξ .lsc m n +
      forcesToFourierDft c d .lcs (idxMn c c.r.nsMinF jF m n) * ξ .lcs m n) =
      ∑ k ∈ Ico 0 c.s.nZeta, ∑ l ∈ Ico 0 c.s.nThetaReduced,
        let F := fun a => d a (isEven m) (idxKl c c.r.nsMinF jF k + l)
        let g := fun a => gVal a (torTerm (fun a => ξ a m n) (torAt c k n)) (polAt c m l)
        pw c l * (F .blmn * g .lu + F .clmn * g .lv) := by
    intro m hm n hn
    rw [Finset.mem_Ico] at hm hn
    have hmM : m < mMax c jF := by unfold mMax; split <;> omega
    have hf : ∀ a, Coef.isRZ a = false → forcesToFourierDft c d a (idxMn c c.r.nsMinF jF m n) =
        ∑ k ∈ Ico 0 c.s.nZeta, ∑ l ∈ Ico 0 c.s.nThetaReduced,
          fVal a (polTerm (c.xmpq m) (fun a => d a (isEven m) (idxKl c c.r.nsMinF jF k + l)) (polAt c m l)) (torAt c k n) := by
      intro a ha
      rw [coef_apply hp d a hm.1 hm.2 hn, if_pos]
      · refine Finset.sum_congr rfl fun k _ => ?_
        rw [polSums_eq, fVal_sum]
      · by_cases e : jF < jMaxRZ c
        · exact Or.inl ⟨hj.1, e, hmM, Or.inr h0⟩
        · exact Or.inr ⟨by omega, by omega, ha⟩
    rw [hf _ rfl, hf _ rfl]
    simp only [Finset.sum_mul, ← Finset.sum_add_distrib]
    refine Finset.sum_congr rfl fun k _ => Finset.sum_congr rfl fun l hl => ?_
    rw [Finset.mem_Ico] at hl
    exact point_l (c.xmpq m) _ _ _ (fun a => ξ a m n) _ (pol_weights h hm.1 hm.2 hl.1 hl.2)
  rw [Finset.sum_congr rfl fun m hm => Finset.sum_congr rfl fun n hn => key m hm n hn, swap4]
  refine Finset.sum_congr rfl fun k _ => Finset.sum_congr rfl fun l _ => ?_
  have hz : ∀ a, ∀ m ∈ Ico 0 c.s.mpol, jF < jMin m → ∑ n ∈ Ico 0 (c.s.ntor + 1),
      gVal a (torTerm (fun a => ξ a m n) (torAt c k n)) (polAt c m l) = 0 := by
    intro a m hm hlt
    unfold jMin at hlt
    split at hlt <;> omega
  simp only [Finset.sum_add_distrib]
  rw [parity_sum (by omega) _ _ (hz .lu), parity_sum (by omega) _ _ (hz .lv)]
  simp only [← Finset.sum_add_distrib, Finset.mul_sum]

end Verif.Transform
