import Verif.FreeBound.Model

/-! # C109: the geometry NESTOR works with -/
namespace Verif.FreeBound
open Verif Partition Transform Control Finset

theorem handOne_apply (s : Sizes.Sizes) (x : Nestor.Coef → Int → ℝ) (o m n : Int) (h : Nestor.Coef → Int → ℝ) (a : Nestor.Coef) (i : Int) :
    handOne s x o m n h a i = if i = n * s.mpol + m ∧ present s a = true then x a (o + (m * (s.ntor + 1) + n)) else h a i := by
  unfold handOne present
  cases h1 : s.lthreed <;> cases h2 : s.lasym <;> cases a <;> simp [put_apply]

/-- **C109 (boundary coefficients).** After `HandOverBoundaryGeometry` every coefficient that the run has is the one of `physical_x`, with the two mode
numbers exchanged in the layout; all other elements are untouched. -/
theorem C109_handover (s : Sizes.Sizes) (x : Nestor.Coef → Int → ℝ) (o : Int) (h : Nestor.Coef → Int → ℝ) (a : Nestor.Coef) {m n : Int}
    (hm : 0 ≤ m ∧ m < s.mpol) (hn : 0 ≤ n ∧ n ≤ s.ntor) :
    handOver s x o h a (n * s.mpol + m) = if present s a then x a (o + (m * (s.ntor + 1) + n)) else h a (n * s.mpol + m) := by
  unfold handOver
  set i := n * s.mpol + m with hi
  rw [forRange_map (fun m h => forRange 0 (s.ntor + 1) (fun n h => handOne s x o m n h) h)
    (fun m v => forRange 0 (s.ntor + 1) (fun n v => if i = n * s.mpol + m ∧ present s a = true then x a (o + (m * (s.ntor + 1) + n)) else v) v)
    (fun h => h a i) (fun m h => forRange_map _ _ (fun h => h a i) (fun n h => handOne_apply s x o m n h a i) h)]
  rw [forRange_only hm.1 hm.2]
  · rw [forRange_only hn.1 (by omega)]
    · simp [hi]
    · intro n' v h1 h2 hne
      rw [if_neg]
      rintro ⟨e, -⟩
      exact hne (flat_inj hm.1 hm.2 hm.1 hm.2 (hi.symm.trans e)).1.symm
  · intro m' v h1 h2 hne
    refine forRange_none _ (fun n' v h3 h4 => ?_) v
    rw [if_neg]
    rintro ⟨e, -⟩
    exact hne (flat_inj hm.1 hm.2 h1 h2 (hi.symm.trans e)).2.symm

/-- nothing outside the coefficients is written -/
theorem handover_outside (s : Sizes.Sizes) (x : Nestor.Coef → Int → ℝ) (o : Int) (h : Nestor.Coef → Int → ℝ) (a : Nestor.Coef) (i : Int)
    (hi : i < 0 ∨ (s.ntor + 1) * s.mpol ≤ i) : handOver s x o h a i = h a i := by
  unfold handOver
  rw [forRange_map (fun m h => forRange 0 (s.ntor + 1) (fun n h => handOne s x o m n h) h)
    (fun m v => forRange 0 (s.ntor + 1) (fun n v => if i = n * s.mpol + m ∧ present s a = true then x a (o + (m * (s.ntor + 1) + n)) else v) v)
    (fun h => h a i) (fun m h => forRange_map _ _ (fun h => h a i) (fun n h => handOne_apply s x o m n h a i) h)]
  refine forRange_none _ (fun m v h1 h2 => forRange_none _ (fun n v h3 h4 => ?_) v) _
  rw [if_neg]
  rintro ⟨e, -⟩
  have a1 : 0 ≤ n * s.mpol := mul_nonneg h3 (by omega)
  have a2 : n * s.mpol ≤ s.ntor * s.mpol := mul_le_mul_of_nonneg_right (by omega) (by omega)
  rcases hi with hi | hi
  · omega
  · nlinarith

/-- the axis arrays hold the first poloidal point of the innermost surface -/
theorem C109_axis (s : Sizes.Sizes) (e h : Int → ℝ) {k : Int} (hk : 0 ≤ k ∧ k < s.nZeta) : handOverAxis s e h k = e (k * s.nThetaEff) := by
  unfold handOverAxis
  rw [forRange_map (fun k h => upd h k (e (k * s.nThetaEff))) (fun k' v => if k = k' then e (k' * s.nThetaEff) else v) (fun h => h k) (fun k' h => by
    by_cases c : k = k'
    · subst c; simp
    · simp only [if_neg c]; exact upd_ne _ _ c)]
  rw [forRange_only hk.1 hk.2]
  · simp
  · intro j v _ _ hne
    rw [if_neg (by omega)]

/-- arrays of `FourierGeometry` under the names of the transforms -/
def named (x : Coef → Int → ℝ) : Nestor.Coef → Int → ℝ
  | .rCC => x .rcc
  | .rSS => x .rss
  | .zSC => x .zsc
  | .zCS => x .zcs
  | _ => fun _ => 0

theorem allModes {mpol j : Int} (hj : j ≠ 0) (f : Int → ℝ) :
    ∑ m ∈ Ico 0 mpol, f m = ∑ m ∈ Spec.modes mpol j true, f m + ∑ m ∈ Spec.modes mpol j false, f m := by
  unfold Spec.modes
  rw [Finset.sum_filter, Finset.sum_filter, ← Finset.sum_add_distrib]
  refine Finset.sum_congr rfl fun m _ => ?_
  by_cases h : 2 ∣ m <;> simp [h, hj]

/-- the surface NESTOR gets -/
noncomputable def surface (c : Ctx) (x : Coef → Int → ℝ) (N : Nestor.SCtx) : Prop :=
  N.s = c.s ∧ N.co = handOverCall c (named x) (fun _ _ => 0)

section
variable {c : Ctx} {N : Nestor.SCtx} {nfp mpol ntor ntheta nzeta mg ng : Int}

theorem mk_facts {lasym : Bool} (hs : Sizes.mk lasym nfp mpol ntor ntheta nzeta mg ng = .ok c.s) :
    c.s.mnsize = c.s.mpol * (c.s.ntor + 1) ∧ c.s.lthreed = decide (0 < c.s.ntor) := by
  unfold Sizes.mk at hs
  split_ifs at hs <;> (injection hs with hs; rw [← hs]; exact ⟨rfl, rfl⟩)

/-- NESTOR's series in the symmetric case is the series over all modes of the last surface -/
theorem surface_series (hs : Sizes.mk false nfp mpol ntor ntheta nzeta mg ng = .ok c.s) (hr : c.r.nsMaxF1 = c.ns) (hns : 2 ≤ c.ns) (x : Coef → Int → ℝ)
    (hN : surface c x N) (θ ζ : ℝ) :
    let X : Coef → Int → Int → ℝ := fun a m n => x a (((c.ns - 1 - c.r.nsMinF1) * mpol + m) * (ntor + 1) + n)
    N.R θ ζ = ∑ e : Bool, Spec.evenSeries nfp ntor (Spec.modes mpol (c.ns - 1) e) (X .rcc) (X .rss) θ (ζ / nfp) ∧
    N.Z θ ζ = ∑ e : Bool, Spec.oddSeries nfp ntor (Spec.modes mpol (c.ns - 1) e) (X .zsc) (X .zcs) θ (ζ / nfp) := by
  obtain ⟨hNs, hNc⟩ := hN
  obtain ⟨e1, e2⟩ := mk_facts hs
  have hg := goodP_of_mk hs
  obtain ⟨⟨a1, a2, a3, a4⟩, _⟩ := (Sizes.C07_sizes false nfp mpol ntor ntheta nzeta mg ng).2 c.s hs
  have hok := ((Sizes.C07_sizes false nfp mpol ntor ntheta nzeta mg ng).1).2 ⟨c.s, hs⟩
  subst a2 a3 a4
  intro X
  have hf : (c.s.nfp : ℝ) ≠ 0 := by exact_mod_cast (by omega : c.s.nfp ≠ 0)
  have ang (n : Int) : (n : ℝ) * c.s.nfp * (ζ / c.s.nfp) = n * ζ := by field_simp
  have co (a : Nestor.Coef) (b : Coef) (hab : named x a = x b) (hp : a = .rCC ∨ a = .zSC ∨ (a = .rSS ∨ a = .zCS)) {m n : Int} (hm : m ∈ Ico 0 c.s.mpol)
      (hn : n ∈ Ico 0 (c.s.ntor + 1)) : N.co a (n * c.s.mpol + m) = (if (a = .rSS ∨ a = .zCS) ∧ ¬ 0 < c.s.ntor then 0 else X b m n) := by
    rw [Finset.mem_Ico] at hm hn
    rw [hNc, handOverCall, if_pos hr, C109_handover c.s _ _ _ a hm ⟨hn.1, by omega⟩, hab, lcfsOffset, hr, e1]
    have : (c.ns - 1 - c.r.nsMinF1) * (c.s.mpol * (c.s.ntor + 1)) + (m * (c.s.ntor + 1) + n)
        = ((c.ns - 1 - c.r.nsMinF1) * c.s.mpol + m) * (c.s.ntor + 1) + n := by ring
    rw [this]
    by_cases hp0 : 0 < c.s.ntor <;> rcases hp with rfl | rfl | rfl | rfl <;> simp [present, e2, X, hp0]
  have sin0 {n : Int} (hn : n ∈ Ico 0 (c.s.ntor + 1)) (h : ¬ 0 < c.s.ntor) : Real.sin ((n : ℝ) * ζ) = 0 := by
    rw [Finset.mem_Ico] at hn
    have : n = 0 := by omega
    simp [this]
  have fin (f : Bool → ℝ) : ∑ e : Bool, f e = f true + f false := Fintype.sum_bool f
  rw [fin, fin]
  unfold Spec.evenSeries Spec.oddSeries
  rw [← allModes (by omega), ← allModes (by omega)]
  unfold Nestor.SCtx.R Nestor.SCtx.Z
  rw [hNs, Finset.sum_comm, Finset.sum_comm (s := Ico 0 (c.s.ntor + 1))]
  refine ⟨Finset.sum_congr rfl fun m hm => Finset.sum_congr rfl fun n hn => ?_, Finset.sum_congr rfl fun m hm => Finset.sum_congr rfl fun n hn => ?_⟩
  · rw [co .rCC .rcc rfl (Or.inl rfl) hm hn, co .rSS .rss rfl (by simp) hm hn, a1, ang]
    by_cases h : 0 < c.s.ntor
    · simp [h]; left; ring
    · simp [h, sin0 hn h]; left; ring
  · rw [co .zSC .zsc rfl (by simp) hm hn, co .zCS .zcs rfl (by simp) hm hn, a1, ang]
    by_cases h : 0 < c.s.ntor
    · simp [h]; left; ring
    · simp [h, sin0 hn h]; left; ring

/-- the angles of point `(l, k)` of NESTOR are those of point `(k, l)` of the plasma -/
theorem same_angles (hs : Sizes.mk false nfp mpol ntor ntheta nzeta mg ng = .ok c.s) (hN : N.s = c.s) {k l : Int} (hk : 0 ≤ k ∧ k < c.s.nZeta) :
    N.theta (l * c.s.nZeta + k) = Spec.gridTheta c.s l ∧ N.zeta (l * c.s.nZeta + k) / nfp = Spec.gridPhi c.s k := by
  have g := Fourier.goodGrid_of_mk hs
  obtain ⟨⟨a1, a2, a3, a4⟩, _⟩ := (Sizes.C07_sizes false nfp mpol ntor ntheta nzeta mg ng).2 c.s hs
  have ge := g.even
  have gz := g.nz
  have d : (l * c.s.nZeta + k) / c.s.nZeta = l := by
    rw [add_comm, Int.add_mul_ediv_right _ _ (by omega), Int.ediv_eq_zero_of_lt hk.1 hk.2, zero_add]
  have m : (l * c.s.nZeta + k) % c.s.nZeta = k := by
    rw [add_comm, Int.add_mul_emod_self_right, Int.emod_eq_of_lt hk.1 hk.2]
  unfold Nestor.SCtx.theta Nestor.SCtx.zeta Spec.gridTheta Spec.gridPhi
  rw [hN, d, m, a2]
  constructor
  · have : (c.s.nThetaEven : ℝ) = 2 * (c.s.nThetaReduced - 1) := by rw [ge]; push_cast; ring
    rw [this, mul_assoc, mul_div_mul_left _ _ (by norm_num)]
  · ring
end
end Verif.FreeBound
