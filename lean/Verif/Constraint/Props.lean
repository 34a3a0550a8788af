import Verif.Constraint.Filter
import Verif.Common.Trig

/-!
# C70: the filter of the constraint force is an exact band-pass
-/
namespace Verif.Constraint
open Verif Verif.Fourier Partition Finset Transform Spec

section
variable {c : Ctx} {lasym : Bool} {nfp mpol ntor ntheta nzeta mg ng : Int}

theorem grid_of_mk (hs : Sizes.mk lasym nfp mpol ntor ntheta nzeta mg ng = .ok c.s) :
    c.s.nZnT = c.s.nZeta * c.s.nThetaEff ∧ 0 < c.s.nThetaEff ∧ 0 < c.s.nZeta ∧ c.s.lasym = lasym ∧ c.s.mpol = mpol ∧ c.s.ntor = ntor := by
  have h := goodP_of_mk hs
  obtain ⟨⟨a1, a2, a3, a4⟩, _, _, ⟨_, d2, d3, _⟩, _⟩ := (Sizes.C07_sizes lasym nfp mpol ntor ntheta nzeta mg ng).2 c.s hs
  have := h.red
  have := h.eff
  have := h.nyq
  have := h.ntor
  exact ⟨d3, by omega, by omega, a1, a3, a4⟩

/-- a surface average as a sum over both angles -/
theorem mean_kl (hs : Sizes.mk lasym nfp mpol ntor ntheta nzeta mg ng = .ok c.s) (f : Int → ℝ) :
    mean c.s f = ∑ k ∈ Ico 0 c.s.nZeta, ∑ l ∈ Ico 0 c.s.nThetaEff, f (k * c.s.nThetaEff + l) * Sizes.wInt c.s l := by
  obtain ⟨h3, hpos, _⟩ := grid_of_mk hs
  have e := flat_sum (a := c.s.nZeta) hpos (fun k l => f (k * c.s.nThetaEff + l) * Sizes.wInt c.s l)
  unfold mean Kernels.Spec.integral
  rw [← e, h3]
  refine Finset.sum_congr rfl fun kl _ => ?_
  rw [mul_comm (kl / c.s.nThetaEff), Int.mul_ediv_add_emod]

theorem value_kl (hs : Sizes.mk lasym nfp mpol ntor ntheta nzeta mg ng = .ok c.s) (f : Fam) (m n k : Int) {l : Int}
    (hl : 0 ≤ l ∧ l < c.s.nThetaEff) : value c.s f m n (k * c.s.nThetaEff + l) = waveAt c.s f m n k l := by
  obtain ⟨e1, e2⟩ := divmod (b := k) hl.1 hl.2
  unfold value
  rw [e1, e2]

theorem coef_kl (hs : Sizes.mk lasym nfp mpol ntor ntheta nzeta mg ng = .ok c.s) (g : Int → ℝ) (f : Fam) (m n : Int) :
    coef c.s g f m n = coefKl c (fun k l => g (k * c.s.nThetaEff + l)) f m n := by
  unfold coef coefKl
  rw [mean_kl hs]
  refine Finset.sum_congr rfl fun k _ => Finset.sum_congr rfl fun l hl => ?_
  rw [Finset.mem_Ico] at hl
  rw [value_kl hs f m n k hl]

/-- **C70**, what the filter computes: for every effective force, on every surface but the axis, the result is the sum over
    the modes 1 ≤ m ≤ mpol - 2, 0 ≤ n ≤ ntor of the Fourier coefficients of the effective force on that surface, times
    `tcon` of the surface and `faccon` of the mode. On the axis it is zero. What the work arrays and `gCon` held before does
    not matter, and no other surface has an influence. Stellarator-symmetric runs use the odd functions on half of the
    poloidal circle, the others all functions on the full one. -/
theorem C70_filter (hs : Sizes.mk lasym nfp mpol ntor ntheta nzeta mg ng = .ok c.s) (faccon tcon : Int → ℝ) (g : Int → ℝ)
    (st : (Four → Int → ℝ) × (Out → Int → ℝ)) {j kl : Int} (hj : 0 ≤ c.r.nsMinF ∧ c.r.nsMinF ≤ j ∧ j < c.r.nsMaxF)
    (hkl : 0 ≤ kl ∧ kl < c.s.nZnT) :
    deAlias c faccon tcon g st ((j - c.r.nsMinF) * c.s.nZnT + kl) =
      if 1 ≤ j then series c.s (Ico 1 (mpol - 1)) (Ico 0 (ntor + 1)) (fun f m n =>
          tcon (j - c.r.nsMinF) * faccon m * coef c.s (fun kl => g ((j - c.r.nsMinF) * c.s.nZnT + kl)) f m n) kl
      else 0 := by
  obtain ⟨h3, hpos, _, _, a3, a4⟩ := grid_of_mk hs
  have hk : 0 ≤ kl / c.s.nThetaEff ∧ kl / c.s.nThetaEff < c.s.nZeta :=
    ⟨Int.ediv_nonneg hkl.1 hpos.le, Int.ediv_lt_of_lt_mul hpos (by rw [← h3]; exact hkl.2)⟩
  have hl : 0 ≤ kl % c.s.nThetaEff ∧ kl % c.s.nThetaEff < c.s.nThetaEff :=
    ⟨Int.emod_nonneg _ hpos.ne', Int.emod_lt_of_pos _ hpos⟩
  have flat : ∀ k l, idxKl c c.r.nsMinF j k + l = (j - c.r.nsMinF) * c.s.nZnT + (k * c.s.nThetaEff + l) := by
    intro k l
    unfold idxKl
    rw [h3]; ring
  have ei : (j - c.r.nsMinF) * c.s.nZnT + kl = idxKl c c.r.nsMinF j (kl / c.s.nThetaEff) + kl % c.s.nThetaEff := by
    rw [flat, mul_comm (kl / c.s.nThetaEff), Int.mul_ediv_add_emod]
  rw [ei, deAlias_kl hs faccon tcon g st hj hk hl h3]
  by_cases h1 : 1 ≤ j
  · rw [if_pos h1, if_pos h1]
    unfold whole partOf series
    rw [a3, a4]
    refine Finset.sum_congr rfl fun f _ => Finset.sum_congr rfl fun m _ => Finset.sum_congr rfl fun n _ => ?_
    beta_reduce
    rw [coef_kl hs]
    simp only [flat]
    rfl
  · rw [if_neg h1, if_neg h1]

/-! ### orthogonality -/

/-- sine or cosine -/
noncomputable def trig (b : Bool) (x : ℝ) : ℝ := if b then Real.sin x else Real.cos x

theorem trig_orth {N : Int} (hN : 1 ≤ N) {p q : Int} (hp : 0 ≤ p) (hq : 0 ≤ q) (hpq : p + q < N) (b b' : Bool) :
    (∑ l ∈ Ico 0 N, trig b (p * (2 * Real.pi * l / N)) * trig b' (q * (2 * Real.pi * l / N))) * (scale p * scale q) =
      if b = b' ∧ p = q ∧ (b = true → p ≠ 0) then (N : ℝ) else 0 := by
  have d1 : (N ∣ p - q) ↔ p = q := by
    constructor
    · intro h
      have := Int.eq_zero_of_abs_lt_dvd h (by rw [abs_lt]; omega)
      omega
    · rintro rfl; simp
  have d2 : (N ∣ p + q) ↔ p + q = 0 := by
    constructor
    · intro h
      exact Int.eq_zero_of_abs_lt_dvd h (by rw [abs_lt]; omega)
    · intro h; rw [h]; simp
  cases b <;> cases b' <;> simp only [trig, if_true, Bool.false_eq_true, if_false]
  · rw [cos_cos_sum N (by omega)]
    simp only [d1, d2]
    by_cases e : p = q
    · subst e
      by_cases e0 : p = 0
      · subst e0; simp
      · rw [scale_sq e0]; simp [show ¬ p + p = 0 by omega]
    · simp [e, show ¬ p + q = 0 by omega]
  · have : ∀ l : Int, Real.cos (p * (2 * Real.pi * l / N)) * Real.sin (q * (2 * Real.pi * l / N)) =
        Real.sin (q * (2 * Real.pi * l / N)) * Real.cos (p * (2 * Real.pi * l / N)) := fun l => mul_comm _ _
    simp only [this]
    rw [sin_cos_sum N (by omega)]
    simp
  · rw [sin_cos_sum N (by omega)]
    simp
  · rw [sin_sin_sum N (by omega)]
    simp only [d1, d2]
    by_cases e : p = q
    · subst e
      by_cases e0 : p = 0
      · subst e0; simp
      · rw [scale_sq e0]; simp [e0, show ¬ p + p = 0 by omega]
    · simp [e, show ¬ p + q = 0 by omega]

def polSin : Fam → Bool
  | .sc | .ss => true
  | _ => false
def torSin : Fam → Bool
  | .cs | .ss => true
  | _ => false

theorem fam_eq {f f' : Fam} : f = f' ↔ polSin f = polSin f' ∧ torSin f = torSin f' := by
  cases f <;> cases f' <;> simp [polSin, torSin]

theorem waveAt_trig (h : GoodP c) (f : Fam) (m n k l : Int) : waveAt c.s f m n k l =
    scale m * scale n * (trig (polSin f) (m * (2 * Real.pi * l / c.s.nThetaEven)) * trig (torSin f) (n * (2 * Real.pi * k / c.s.nZeta))) := by
  unfold waveAt wave
  rw [theta_eq h, zeta_eq h]
  cases f <;> simp [trig, polSin, torSin]

/-- the angular functions are orthonormal on the full grid, as far as no products alias -/
theorem full_orth (h : GoodP c) {m n m' n' : Int} (m0 : 0 ≤ m) (m0' : 0 ≤ m') (hm : m + m' < c.s.nThetaEven)
    (n0 : 0 ≤ n) (n0' : 0 ≤ n') (hn : n + n' < c.s.nZeta) (f f' : Fam) :
    ∑ k ∈ Ico 0 c.s.nZeta, ∑ l ∈ Ico 0 c.s.nThetaEven, Asym.fw c * (waveAt c.s f m n k l * waveAt c.s f' m' n' k l) =
      if (f = f' ∧ m = m' ∧ n = n') ∧ (polSin f = true → m ≠ 0) ∧ (torSin f = true → n ≠ 0) then 1 else 0 := by
  have hz : (0:ℝ) < c.s.nZeta := by exact_mod_cast (show 0 < c.s.nZeta by omega)
  have ht : (0:ℝ) < c.s.nThetaEven := by exact_mod_cast (show 0 < c.s.nThetaEven by omega)
  have P := trig_orth (N := c.s.nThetaEven) (by omega) m0 m0' hm (polSin f) (polSin f')
  have T := trig_orth (N := c.s.nZeta) (by omega) n0 n0' hn (torSin f) (torSin f')
  have e : ∑ k ∈ Ico 0 c.s.nZeta, ∑ l ∈ Ico 0 c.s.nThetaEven, Asym.fw c * (waveAt c.s f m n k l * waveAt c.s f' m' n' k l) =
      Asym.fw c * (((∑ l ∈ Ico 0 c.s.nThetaEven, trig (polSin f) (m * (2 * Real.pi * l / c.s.nThetaEven)) *
          trig (polSin f') (m' * (2 * Real.pi * l / c.s.nThetaEven))) * (scale m * scale m')) *
        ((∑ k ∈ Ico 0 c.s.nZeta, trig (torSin f) (n * (2 * Real.pi * k / c.s.nZeta)) *
          trig (torSin f') (n' * (2 * Real.pi * k / c.s.nZeta))) * (scale n * scale n'))) := by
    have : ∀ (x y z w : ℝ), (x * z) * (y * w) = x * y * (z * w) := fun x y z w => by ring
    rw [this, Finset.sum_mul_sum, Finset.sum_comm, Finset.sum_mul, Finset.mul_sum]
    refine Finset.sum_congr rfl fun l _ => ?_
    rw [Finset.sum_mul, Finset.mul_sum]
    refine Finset.sum_congr rfl fun k _ => ?_
    rw [waveAt_trig h, waveAt_trig h]
    ring
  rw [e, P, T]
  unfold Asym.fw
  push_cast
  by_cases h1 : polSin f = polSin f' ∧ m = m' ∧ (polSin f = true → m ≠ 0)
  · rw [if_pos h1]
    by_cases h2 : torSin f = torSin f' ∧ n = n' ∧ (torSin f = true → n ≠ 0)
    · rw [if_pos h2, if_pos ⟨⟨fam_eq.2 ⟨h1.1, h2.1⟩, h1.2.1, h2.2.1⟩, h1.2.2, h2.2.2⟩]
      field_simp
    · rw [if_neg h2, if_neg (fun hh => h2 ⟨(fam_eq.1 hh.1.1).2, hh.1.2.2, hh.2.2⟩)]
      simp
  · rw [if_neg h1, zero_mul, mul_zero, if_neg (fun hh => h1 ⟨(fam_eq.1 hh.1.1).1, hh.1.2.1, hh.2.1⟩)]

/-- the same grid with both halves of the poloidal circle -/
def fullCtx (c : Ctx) : Ctx := { c with s := { c.s with nThetaEff := c.s.nThetaEven, nZnT := c.s.nZeta * c.s.nThetaEven } }

theorem fullCtx_good (h : GoodP c) : Asym.Full (fullCtx c) :=
  { mpol := h.mpol, ntor := h.ntor, nyq := h.nyq, n2 := h.n2, nfp := h.nfp, m2 := h.m2, even := h.even, red := h.red
    eff := by have := h.even; have := h.red; show c.s.nThetaReduced ≤ c.s.nThetaEven; omega
    full := rfl, znt := rfl }

/-- orthonormal with the weights of the solver -/
theorem mean_orth (hs : Sizes.mk lasym nfp mpol ntor ntheta nzeta mg ng = .ok c.s) {m n m' n' : Int} (m0 : 0 ≤ m) (m0' : 0 ≤ m')
    (hm : m + m' < c.s.nThetaEven) (n0 : 0 ≤ n) (n0' : 0 ≤ n') (hn : n + n' < c.s.nZeta) {f f' : Fam}
    (hf : f ∈ fams c.s.lasym) (hf' : f' ∈ fams c.s.lasym) :
    mean c.s (fun kl => value c.s f m n kl * value c.s f' m' n' kl) =
      if (f = f' ∧ m = m' ∧ n = n') ∧ (polSin f = true → m ≠ 0) ∧ (torSin f = true → n ≠ 0) then 1 else 0 := by
  have h := goodP_of_mk hs
  obtain ⟨_, _, _, hla, _, _⟩ := grid_of_mk hs
  rw [mean_kl hs, ← full_orth h m0 m0' hm n0 n0' hn f f']
  have e1 : ∑ k ∈ Ico 0 c.s.nZeta, ∑ l ∈ Ico 0 c.s.nThetaEff, value c.s f m n (k * c.s.nThetaEff + l) *
        value c.s f' m' n' (k * c.s.nThetaEff + l) * Sizes.wInt c.s l =
      ∑ k ∈ Ico 0 c.s.nZeta, ∑ l ∈ Ico 0 c.s.nThetaEff, Sizes.wInt c.s l * (waveAt c.s f m n k l * waveAt c.s f' m' n' k l) := by
    refine Finset.sum_congr rfl fun k _ => Finset.sum_congr rfl fun l hl => ?_
    rw [Finset.mem_Ico] at hl
    rw [value_kl hs f m n k hl, value_kl hs f' m' n' k hl]
    ring
  rw [e1]
  cases lasym
  · obtain ⟨_, h2, _⟩ := sizes_symm hs
    have hF := fullCtx_good h
    have hodd : ∀ f, f ∈ fams c.s.lasym → sg f = -1 := by
      intro f hf
      rw [hla] at hf
      have : f = .sc ∨ f = .cs := by simpa [fams] using hf
      rcases this with rfl | rfl <;> rfl
    have hh := Asym.half_sum hF (fun k l => waveAt c.s f m n k l * waveAt c.s f' m' n' k l) (by
      intro k l k0 k1 l0 l1
      have a := wave_reflect hF f m n ⟨k0, k1⟩ ⟨l0, l1⟩
      have b := wave_reflect hF f' m' n' ⟨k0, k1⟩ ⟨l0, l1⟩
      have a' : waveAt c.s f m n (Asym.kRev (fullCtx c) k) (Asym.lRev (fullCtx c) l) = sg f * waveAt c.s f m n k l := a
      have b' : waveAt c.s f' m' n' (Asym.kRev (fullCtx c) k) (Asym.lRev (fullCtx c) l) = sg f' * waveAt c.s f' m' n' k l := b
      rw [a', b', hodd f hf, hodd f' hf']
      ring)
    refine Eq.trans ?_ hh.symm
    rw [h2]
    refine Finset.sum_congr rfl fun k _ => Finset.sum_congr rfl fun l _ => ?_
    rw [← pw_eq hs]
    rfl
  · have hF := Asym.full_of_mk hs
    rw [hF.full]
    refine Finset.sum_congr rfl fun k _ => Finset.sum_congr rfl fun l _ => ?_
    rw [Asym.wInt_full hs]

theorem mean_sum (s : Sizes.Sizes) {ι : Type} (S : Finset ι) (f : ι → Int → ℝ) : mean s (fun kl => ∑ i ∈ S, f i kl) = ∑ i ∈ S, mean s (f i) := by
  unfold mean Kernels.Spec.integral
  rw [Finset.sum_comm]
  exact Finset.sum_congr rfl fun kl _ => by rw [Finset.sum_mul]

theorem mean_mul (s : Sizes.Sizes) (a : ℝ) (f : Int → ℝ) : mean s (fun kl => a * f kl) = a * mean s f := by
  unfold mean Kernels.Spec.integral
  rw [Finset.mul_sum]
  exact Finset.sum_congr rfl fun kl _ => by ring

theorem mean_congr {s : Sizes.Sizes} {f g : Int → ℝ} (h : ∀ kl, 0 ≤ kl → kl < s.nZnT → f kl = g kl) : mean s f = mean s g := by
  unfold mean Kernels.Spec.integral
  refine Finset.sum_congr rfl fun kl hkl => ?_
  rw [Finset.mem_Ico] at hkl
  rw [h kl hkl.1 hkl.2]

/-- the coefficients of a series come back, as far as no products alias -/
theorem coef_series (hs : Sizes.mk lasym nfp mpol ntor ntheta nzeta mg ng = .ok c.s) (M N : Int) (a : Fam → Int → Int → ℝ) (g : Int → ℝ)
    (hg : ∀ kl, 0 ≤ kl → kl < c.s.nZnT → g kl = series c.s (Ico 0 M) (Ico 0 N) a kl) {f : Fam} (hf : f ∈ fams c.s.lasym) {m n : Int}
    (m0 : 0 ≤ m) (n0 : 0 ≤ n) (hM : m + M ≤ c.s.nThetaEven) (hN : n + N ≤ c.s.nZeta) (kl : Int) :
    coef c.s g f m n * value c.s f m n kl = if m < M ∧ n < N then a f m n * value c.s f m n kl else 0 := by
  have h := goodP_of_mk hs
  have e1 : coef c.s g f m n = ∑ f' ∈ fams c.s.lasym, ∑ m' ∈ Ico 0 M, ∑ n' ∈ Ico 0 N,
      if (f = f' ∧ m = m' ∧ n = n') ∧ (polSin f = true → m ≠ 0) ∧ (torSin f = true → n ≠ 0) then a f' m' n' else 0 := by
    unfold coef
    have : mean c.s (fun kl => g kl * value c.s f m n kl) = mean c.s (fun kl => ∑ f' ∈ fams c.s.lasym, ∑ m' ∈ Ico 0 M, ∑ n' ∈ Ico 0 N,
        a f' m' n' * (value c.s f m n kl * value c.s f' m' n' kl)) := by
      refine mean_congr fun kl k0 k1 => ?_
      rw [hg kl k0 k1]
      unfold series
      rw [Finset.sum_mul]
      refine Finset.sum_congr rfl fun f' _ => ?_
      rw [Finset.sum_mul]
      refine Finset.sum_congr rfl fun m' _ => ?_
      rw [Finset.sum_mul]
      exact Finset.sum_congr rfl fun n' _ => by ring
    rw [this, mean_sum]
    refine Finset.sum_congr rfl fun f' hf' => ?_
    rw [mean_sum]
    refine Finset.sum_congr rfl fun m' hm' => ?_
    rw [mean_sum]
    refine Finset.sum_congr rfl fun n' hn' => ?_
    rw [Finset.mem_Ico] at hm' hn'
    rw [mean_mul, mean_orth hs m0 hm'.1 (by omega) n0 hn'.1 (by omega) hf hf']
    split <;> simp
  by_cases hd : (polSin f = true → m ≠ 0) ∧ (torSin f = true → n ≠ 0)
  · rw [e1, Finset.sum_eq_single_of_mem f hf (by
      intro f' _ hne
      refine Finset.sum_eq_zero fun m' _ => Finset.sum_eq_zero fun n' _ => if_neg ?_
      rintro ⟨⟨rfl, _⟩, _⟩
      exact hne rfl)]
    by_cases hmn : m < M ∧ n < N
    · rw [if_pos hmn, Finset.sum_eq_single_of_mem m (Finset.mem_Ico.2 ⟨m0, hmn.1⟩), Finset.sum_eq_single_of_mem n (Finset.mem_Ico.2 ⟨n0, hmn.2⟩)]
      · rw [if_pos ⟨⟨rfl, rfl, rfl⟩, hd⟩]
      · intro n' _ hne
        refine if_neg ?_
        rintro ⟨⟨_, _, rfl⟩, _⟩
        exact hne rfl
      · intro m' _ hne
        refine Finset.sum_eq_zero fun n' _ => if_neg ?_
        rintro ⟨⟨_, rfl, _⟩, _⟩
        exact hne rfl
    · rw [if_neg hmn, Finset.sum_eq_zero, zero_mul]
      intro m' hm'
      refine Finset.sum_eq_zero fun n' hn' => if_neg ?_
      rw [Finset.mem_Ico] at hm' hn'
      rintro ⟨⟨_, rfl, rfl⟩, _⟩
      exact hmn ⟨hm'.2, hn'.2⟩
  · have hv : value c.s f m n kl = 0 := by
      unfold value
      rw [waveAt_trig h]
      rw [not_and_or] at hd
      rcases hd with hd | hd
      · push Not at hd
        rw [hd.1, hd.2]
        simp [trig]
      · push Not at hd
        rw [hd.1, hd.2]
        simp [trig]
    rw [hv]
    simp

/-- **C70**, band-pass: if the effective force of a surface is a Fourier series whose modes m < M, n < N do not alias with
    those of the filter, then the result is that series without its modes m = 0, m ≥ mpol - 1 and n > ntor, each remaining
    mode multiplied with `tcon` and `faccon`. The grid always admits all resolved modes (M = mpol, N = ntor + 1); a product
    of two resolved series (M = 2 mpol - 1, N = 2 ntor + 1) is admitted if the grid has 3 mpol - 3 poloidal and 3 ntor + 1
    toroidal points. -/
theorem C70_bandpass (hs : Sizes.mk lasym nfp mpol ntor ntheta nzeta mg ng = .ok c.s) (faccon tcon : Int → ℝ) (g : Int → ℝ)
    (st : (Four → Int → ℝ) × (Out → Int → ℝ)) {j : Int} (hj : 0 ≤ c.r.nsMinF ∧ c.r.nsMinF ≤ j ∧ j < c.r.nsMaxF) (h1 : 1 ≤ j)
    {M N : Int} (hM : M + mpol ≤ c.s.nThetaEven + 2) (hN : N + ntor ≤ c.s.nZeta) (a : Fam → Int → Int → ℝ)
    (hg : ∀ kl, 0 ≤ kl → kl < c.s.nZnT → g ((j - c.r.nsMinF) * c.s.nZnT + kl) = series c.s (Ico 0 M) (Ico 0 N) a kl)
    {kl : Int} (hkl : 0 ≤ kl ∧ kl < c.s.nZnT) :
    deAlias c faccon tcon g st ((j - c.r.nsMinF) * c.s.nZnT + kl) =
      series c.s ((Ico 1 (mpol - 1)).filter (· < M)) ((Ico 0 (ntor + 1)).filter (· < N))
        (fun f m n => tcon (j - c.r.nsMinF) * faccon m * a f m n) kl := by
  rw [C70_filter hs faccon tcon g st hj hkl, if_pos h1]
  unfold series
  refine Finset.sum_congr rfl fun f hf => ?_
  rw [Finset.sum_filter]
  refine Finset.sum_congr rfl fun m hm => ?_
  rw [Finset.mem_Ico] at hm
  rw [Finset.sum_filter]
  have e : ∀ n ∈ Ico 0 (ntor + 1), tcon (j - c.r.nsMinF) * faccon m * coef c.s (fun kl => g ((j - c.r.nsMinF) * c.s.nZnT + kl)) f m n *
      value c.s f m n kl = if m < M ∧ n < N then tcon (j - c.r.nsMinF) * faccon m * a f m n * value c.s f m n kl else 0 := by
    intro n hn
    rw [Finset.mem_Ico] at hn
    have := coef_series hs M N a _ hg hf (m := m) (n := n) (by omega) hn.1 (by omega) (by omega) kl
    rw [mul_assoc, this]
    split <;> ring
  rw [Finset.sum_congr rfl e]
  by_cases hmM : m < M
  · rw [if_pos hmM]
    refine Finset.sum_congr rfl fun n _ => ?_
    simp [hmM]
  · rw [if_neg hmM]
    refine Finset.sum_eq_zero fun n _ => if_neg ?_
    simp [hmM]

end

/-- C70, both theorems: mpol = 5, ntor = 2, with and without symmetry; input cos-sin and sin-cos modes up to m = 4, output
    those with 1 ≤ m ≤ 3 -/
example (lasym : Bool) : ∃ c : Ctx, Sizes.mk lasym 5 5 2 0 0 0 0 = .ok c.s ∧ ∀ kl, 0 ≤ kl → kl < c.s.nZnT →
    deAlias c (fun m => m) (fun _ => 2) (fun i => series c.s (Ico 0 5) (Ico 0 3) (fun _ m n => m + n) (i % c.s.nZnT))
      (fun _ _ => 7, fun _ _ => 7) (1 * c.s.nZnT + kl) =
      series c.s ((Ico 1 4).filter (· < 5)) ((Ico 0 3).filter (· < 3)) (fun _ m n => 2 * m * (m + n)) kl := by
  obtain ⟨s, hs⟩ : ∃ s, Sizes.mk lasym 5 5 2 0 0 0 0 = .ok s := by cases lasym <;> exact ⟨_, rfl⟩
  have h16 : s.nThetaEven = 16 ∧ s.nZeta = 8 := by
    cases lasym <;> cases hs <;> exact ⟨rfl, rfl⟩
  obtain ⟨R, hR⟩ : ∃ R : Ranges, R.nsMinF = 0 ∧ R.nsMaxF = 4 := ⟨⟨0, 4, 0, 5, 0, 4, 1, 4, 5⟩, rfl, rfl⟩
  set c : Ctx := ⟨s, R, 5, false, false, fun _ => 1, fun _ => 1⟩ with hc
  refine ⟨c, hs, fun kl k0 k1 => ?_⟩
  have key := C70_bandpass (c := c) hs (fun m => m) (fun _ => 2)
    (fun i => series c.s (Ico 0 5) (Ico 0 3) (fun _ m n => m + n) (i % c.s.nZnT)) (fun _ _ => 7, fun _ _ => 7) (j := 1)
    ⟨by show 0 ≤ R.nsMinF; omega, by show R.nsMinF ≤ 1; omega, by show 1 < R.nsMaxF; omega⟩ (by omega) (M := 5) (N := 3)
    (by show _ ≤ s.nThetaEven + 2; omega) (by show _ ≤ s.nZeta; omega) (fun _ m n => m + n)
    (fun kl h0 h1 => by
      beta_reduce
      rw [(divmod (b := 1 - c.r.nsMinF) h0 h1).2])
    ⟨k0, k1⟩
  have e0 : (1 : Int) - c.r.nsMinF = 1 := by show 1 - R.nsMinF = 1; omega
  rw [e0] at key
  exact key

end Verif.Constraint
