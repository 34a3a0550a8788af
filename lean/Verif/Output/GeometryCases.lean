import Verif.Output.GeometryExtent

/-!
# C92: concrete surfaces, and the cases in which the quantities are wrong
-/
namespace Verif.Output
open Verif Verif.Fourier Finset

/-- the arrays of a run with three surfaces whose boundary is the given surface; everything inside is zero -/
noncomputable def sampled {s : Sizes.Sizes} (S : Surface s) : GeomIn where
  s := s
  ns := 3
  deltaS := 1 / 2
  mu_0 := 1
  sign := -1
  R := { Results.zero with
    gridF := fun c i => if i < 2 * s.nZnT then 0 else
      let θ := thetaGrid s ((i - 2 * s.nZnT) % s.nThetaEff)
      let φ := phiGrid s ((i - 2 * s.nZnT) / s.nThetaEff)
      match c with
      | .r_e => S.R θ φ
      | .z_e => S.Z θ φ
      | .ru_e => deriv (fun t => S.R t φ) θ
      | .zu_e => deriv (fun t => S.Z t φ) θ
      | .rv_e => deriv (S.R θ) φ
      | .zv_e => deriv (S.Z θ) φ
      | _ => 0
    gridO := fun c i =>
      let θ := thetaGrid s ((i - 2 * s.nZnT) % s.nThetaEff)
      let φ := phiGrid s ((i - 2 * s.nZnT) / s.nThetaEff)
      match c with
      | .ruFull => deriv (fun t => S.R t φ) θ
      | .zuFull => deriv (fun t => S.Z t φ) θ }
  rBtor := 1
  r_00 := 1
  r_outer := 1
  r_inner := 1
  dblMax := 1000
  jpar2 := fun _ => 0
  jdotb := fun _ => 0
  bdotb := fun _ => 0
  jperp2 := fun _ => 0

theorem sampled_samples {s : Sizes.Sizes} (S : Surface s) : Samples (sampled S) S := by
  have key (k l : Int) (l0 : 0 ≤ l) (l1 : l < s.nThetaEff) : (2 * s.nZnT + (k * s.nThetaEff + l) - 2 * s.nZnT) % s.nThetaEff = l ∧
      (2 * s.nZnT + (k * s.nThetaEff + l) - 2 * s.nZnT) / s.nThetaEff = k := by
    rw [show 2 * s.nZnT + (k * s.nThetaEff + l) - 2 * s.nZnT = l + s.nThetaEff * k by ring, Int.add_mul_emod_self_left, Int.emod_eq_of_lt l0 l1,
      Int.add_mul_ediv_left _ _ (by omega), Int.ediv_eq_zero_of_lt l0 l1, zero_add]
    exact ⟨rfl, rfl⟩
  have kp (k l : Int) (k0 : 0 ≤ k) (l0 : 0 ≤ l) (l1 : l < s.nThetaEff) : ¬ 2 * s.nZnT + (k * s.nThetaEff + l) < 2 * s.nZnT := by
    have := mul_nonneg k0 (by omega : 0 ≤ s.nThetaEff)
    omega
  constructor <;> intro k l k0 k1 l0 l1 <;> obtain ⟨e1, e2⟩ := key k l l0 l1 <;> have e3 := kp k l k0 l0 l1
  all_goals
    simp only [sampled, GeomIn.rb, GeomIn.zb, GeomIn.zub, GeomIn.ru0, GeomIn.zu0, GeomIn.rvb, GeomIn.zvb, GeomIn.lcfs, show (3 : Int) - 1 = 2 by rfl, if_neg e3, e1, e2, add_zero]

/-- harmonics of the poloidal angle only -/
theorem trig_cos {nfp A B : Int} (a : Int) (ha : |a| ≤ A) (hB : 0 ≤ B) : TrigPoly nfp A B (fun θ _ => Real.cos (a * θ)) :=
  (TrigPoly.cos a 0 ha (by simpa using hB)).of_eq fun θ φ => by push_cast; ring_nf
theorem trig_sin {nfp A B : Int} (a : Int) (ha : |a| ≤ A) (hB : 0 ≤ B) : TrigPoly nfp A B (fun θ _ => Real.sin (a * θ)) :=
  (TrigPoly.sin a 0 ha (by simpa using hB)).of_eq fun θ φ => by push_cast; ring_nf

/-- a torus with a shift `Z₀` of the midplane and a ripple of the boundary with mode number `m`; `σ = -1` is the other direction of the poloidal angle -/
noncomputable def torus (s : Sizes.Sizes) (hm : 2 ≤ s.mpol) (hn : 0 ≤ s.ntor) (R0 a Z0 σ : ℝ) (m : Int) (hm1 : 0 ≤ m) (hm2 : m ≤ s.mpol - 1) (ε : ℝ) (h : s.lasym = false → Z0 = 0) : Surface s where
  R := fun θ _ => R0 * Real.cos ((0 : Int) * θ) + a * Real.cos ((1 : Int) * θ) + ε * Real.cos (m * θ)
  Z := fun θ _ => Z0 * Real.cos ((0 : Int) * θ) + σ * a * Real.sin ((1 : Int) * θ) + ε * Real.sin (m * θ)
  hR := .add _ _ (.add _ _ (.smul _ _ (trig_cos 0 (by simp; omega) hn)) (.smul _ _ (trig_cos 1 (by simp; omega) hn))) (.smul _ _ (trig_cos m (by rw [abs_of_nonneg hm1]; exact hm2) hn))
  hZ := .add _ _ (.add _ _ (.smul _ _ (trig_cos 0 (by simp; omega) hn)) (.smul _ _ (trig_sin 1 (by simp; omega) hn))) (.smul _ _ (trig_sin m (by rw [abs_of_nonneg hm1]; exact hm2) hn))
  sym := fun hl θ φ => by
    rw [h hl]
    simp only [mul_neg, Real.cos_neg, Real.sin_neg]
    refine ⟨trivial, ?_⟩
    ring

/-- `mpol = 2`, axisymmetric: 10 poloidal points -/
theorem sizes2 (la : Bool) : ∃ s, Sizes.mk la 1 2 0 0 0 2 0 = .ok s ∧ s.lasym = la ∧ s.mpol = 2 ∧ s.ntor = 0 ∧ s.nZeta = 1 ∧ s.nThetaReduced = 6 := by
  cases la <;> exact ⟨_, rfl, rfl, rfl, rfl, rfl, rfl⟩
/-- `mpol = 9`, axisymmetric: the code chooses 24 poloidal points -/
theorem sizes9 : ∃ s, Sizes.mk false 1 9 0 0 0 9 0 = .ok s ∧ s.lasym = false ∧ s.mpol = 9 ∧ s.ntor = 0 ∧ s.nZeta = 1 ∧ s.nThetaEven = 24 ∧ s.nThetaReduced = 13 ∧ s.nThetaEff = 13 ∧
    s.nfp = 1 ∧ s.nZnT = 13 := ⟨_, rfl, rfl, rfl, rfl, rfl, rfl, rfl, rfl, rfl, rfl⟩

/-- the circular torus meets the hypotheses of `C92_area`, `C92_volume_partial`, `C92_circular`, `C92_extent`, `C92_zmax_partial`, `C92_waist_partial`, `C92_height_partial` -/
example : ∃ (I : GeomIn) (S : Surface I.s), Sizes.mk false 1 2 0 0 0 2 0 = .ok I.s ∧ Samples I S ∧ (∀ θ φ, S.R θ φ = 10 + 1 * Real.cos θ) ∧ (∀ θ φ, S.Z θ φ = 1 * Real.sin θ) ∧
    3 * (I.s.mpol - 1) < I.s.nThetaEven ∧ 3 * I.s.ntor < I.s.nZeta ∧ I.s.lasym = false ∧ I.s.nZeta = 1 ∧ (∀ θ φ, 0 < S.R θ φ) ∧ (∀ θ φ, S.R θ φ < I.dblMax) ∧
    (∀ l, 0 ≤ l → l < I.s.nThetaEff → 0 ≤ S.Z (thetaGrid I.s l) (phiGrid I.s 0)) := by
  obtain ⟨s, hs, h1, h2, h3, h4, h5⟩ := sizes2 false
  have hR (θ φ : ℝ) : (torus s (by omega) (by omega) 10 1 0 1 0 (by omega) (by omega) 0 (fun _ => rfl)).R θ φ = 10 + 1 * Real.cos θ := by simp [torus]
  have hZ (θ φ : ℝ) : (torus s (by omega) (by omega) 10 1 0 1 0 (by omega) (by omega) 0 (fun _ => rfl)).Z θ φ = 1 * Real.sin θ := by simp [torus]
  obtain ⟨q1, q2, q3, q4, q5⟩ := nZnT_eq hs
  refine ⟨sampled (torus s (by omega) (by omega) 10 1 0 1 0 (by omega) (by omega) 0 (fun _ => rfl)), _, hs, sampled_samples _, hR, hZ, ?_, ?_, h1, h4, fun θ φ => ?_, fun θ φ => ?_, fun l l0 l1 => ?_⟩
  · show 3 * (s.mpol - 1) < s.nThetaEven; omega
  · show 3 * s.ntor < s.nZeta; omega
  · rw [hR]; have := Real.neg_one_le_cos θ; linarith
  · rw [hR]; have := Real.cos_le_one θ; show _ < (1000 : ℝ); linarith
  · rw [hZ, one_mul]
    have l1' : l < s.nThetaReduced := by rw [h1] at q2; simp only [Bool.false_eq_true, if_false] at q2; rw [← q2]; exact l1
    refine Real.sin_nonneg_of_nonneg_of_le_pi ?_ ?_
    · show 0 ≤ thetaGrid s l
      unfold thetaGrid
      have : (0 : ℝ) ≤ l := by exact_mod_cast l0
      have : (0 : ℝ) ≤ s.nThetaEven := by exact_mod_cast (by omega : (0 : Int) ≤ s.nThetaEven)
      have := Real.pi_pos
      positivity
    · show thetaGrid s l ≤ Real.pi
      unfold thetaGrid
      have hl : (l : ℝ) ≤ 5 := by exact_mod_cast (by omega : l ≤ 5)
      rw [show s.nThetaEven = 10 by omega]
      have := Real.pi_pos
      push_cast
      rw [div_le_iff₀ (by norm_num)]
      nlinarith

/-! ## the volume on the default grid -/

section
variable {nfp : Int}
theorem mean_trig_cos (hn : nfp ≠ 0) (a : Int) : integralMean (fun θ _ => Real.cos (a * θ)) = if a = 0 then 1 else 0 := by
  have h := mean_cos nfp a 0 hn
  have e : (fun θ φ : ℝ => Real.cos ((a : ℝ) * θ - (0 : Int) * (nfp * φ))) = fun θ _ => Real.cos (a * θ) := by funext θ φ; push_cast; ring_nf
  rw [e] at h
  rw [h]; exact if_congr (by tauto) rfl rfl

/-- the product of three harmonics -/
theorem triple (hn : nfp ≠ 0) (a b c : Int) (A : Int) (h1 : |a + b + c| ≤ A) (h2 : |a + b - c| ≤ A) (h3 : |a - b + c| ≤ A) (h4 : |a - b - c| ≤ A) :
    TrigPoly nfp A 0 (fun θ _ => Real.cos (a * θ) * Real.cos (b * θ) * Real.cos (c * θ)) ∧
    integralMean (fun θ _ => Real.cos (a * θ) * Real.cos (b * θ) * Real.cos (c * θ)) =
      ((if a + b + c = 0 then 1 else 0) + (if a + b - c = 0 then 1 else 0) + (if a - b + c = 0 then 1 else 0) + (if a - b - c = 0 then 1 else 0)) / 4 := by
  have t1 := TrigPoly.smul (1 / 4) _ (trig_cos (nfp := nfp) (B := 0) (a + b + c) h1 le_rfl)
  have t2 := TrigPoly.smul (1 / 4) _ (trig_cos (nfp := nfp) (B := 0) (a + b - c) h2 le_rfl)
  have t3 := TrigPoly.smul (1 / 4) _ (trig_cos (nfp := nfp) (B := 0) (a - b + c) h3 le_rfl)
  have t4 := TrigPoly.smul (1 / 4) _ (trig_cos (nfp := nfp) (B := 0) (a - b - c) h4 le_rfl)
  have e : (fun θ (_ : ℝ) => Real.cos (a * θ) * Real.cos (b * θ) * Real.cos (c * θ)) = fun θ _ =>
      1 / 4 * Real.cos ((a + b + c : Int) * θ) + 1 / 4 * Real.cos ((a + b - c : Int) * θ) + 1 / 4 * Real.cos ((a - b + c : Int) * θ) + 1 / 4 * Real.cos ((a - b - c : Int) * θ) := by
    funext θ φ
    push_cast
    rw [show ((a : ℝ) + b + c) * θ = a * θ + b * θ + c * θ by ring, show ((a : ℝ) + b - c) * θ = a * θ + b * θ - c * θ by ring,
      show ((a : ℝ) - b + c) * θ = a * θ - b * θ + c * θ by ring, show ((a : ℝ) - b - c) * θ = a * θ - b * θ - c * θ by ring]
    generalize (a : ℝ) * θ = x
    generalize (b : ℝ) * θ = y
    generalize (c : ℝ) * θ = z
    simp only [Real.cos_add, Real.cos_sub, Real.sin_add, Real.sin_sub]
    ring
  rw [e]
  refine ⟨.add _ _ (.add _ _ (.add _ _ t1 t2) t3) t4, ?_⟩
  rw [mean_add (.add _ _ (.add _ _ t1 t2) t3) t4, mean_add (.add _ _ t1 t2) t3, mean_add t1 t2, mean_smul, mean_smul, mean_smul, mean_smul, mean_trig_cos hn, mean_trig_cos hn, mean_trig_cos hn,
    mean_trig_cos hn]
  ring
end

/-- **C92** (volume fails): with `mpol = 9` the code chooses 24 poloidal points; for a torus with radii 10 and 1 and a ripple of amplitude 1/16 with `m = 8` the volume of the output file is too
    large by `4π²/16³` -/
theorem C92_volume_fails : ∃ (I : GeomIn) (S : Surface I.s), Sizes.mk false 1 9 0 0 0 9 0 = .ok I.s ∧ Samples I S ∧
    I.volume_p = |∫ φ in (0 : ℝ)..2 * Real.pi, ∫ θ in (0 : ℝ)..2 * Real.pi, S.R θ φ * (S.R θ φ * deriv (fun t => S.Z t φ) θ)| / 2 + 4 * Real.pi ^ 2 / 16 ^ 3 := by
  obtain ⟨s, hs, h1, h2, h3, h4, h5, h6, h7, h8, h9⟩ := sizes9
  set S := torus s (by omega) (by omega) 10 1 0 1 8 (by omega) (by omega) (1 / 16) (fun _ => rfl) with hS
  have hsam := sampled_samples S
  refine ⟨sampled S, S, hs, hsam, ?_⟩
  have hR (θ φ : ℝ) : S.R θ φ = 10 + Real.cos θ + 1 / 16 * Real.cos (8 * θ) := by rw [hS]; simp [torus]
  have hZ (θ φ : ℝ) : S.Z θ φ = Real.sin θ + 1 / 16 * Real.sin (8 * θ) := by rw [hS]; simp [torus]
  have zu (θ φ : ℝ) : deriv (fun t => S.Z t φ) θ = Real.cos θ + 1 / 2 * Real.cos (8 * θ) := by
    have : (fun t => S.Z t φ) = fun t => Real.sin t + 1 / 16 * Real.sin (8 * t) := by funext t; exact hZ t φ
    rw [this]
    have h8 : HasDerivAt (fun t : ℝ => 8 * t) 8 θ := by simpa using (hasDerivAt_id θ).const_mul (8 : ℝ)
    exact (((Real.hasDerivAt_sin θ).add (h8.sin.const_mul (1 / 16))).congr_deriv (by ring)).deriv
  have hnf : s.nfp ≠ 0 := by omega
  have T (a b c : Int) (h1 : |a + b + c| ≤ 23) (h2 : |a + b - c| ≤ 23) (h3 : |a - b + c| ≤ 23) (h4 : |a - b - c| ≤ 23) := triple hnf a b c 23 h1 h2 h3 h4
  -- the monomials
  obtain ⟨a1, b1⟩ := T 1 0 0 (by decide) (by decide) (by decide) (by decide)
  obtain ⟨a2, b2⟩ := T 1 1 0 (by decide) (by decide) (by decide) (by decide)
  obtain ⟨a3, b3⟩ := T 1 1 1 (by decide) (by decide) (by decide) (by decide)
  obtain ⟨a4, b4⟩ := T 8 0 0 (by decide) (by decide) (by decide) (by decide)
  obtain ⟨a5, b5⟩ := T 8 1 0 (by decide) (by decide) (by decide) (by decide)
  obtain ⟨a6, b6⟩ := T 8 1 1 (by decide) (by decide) (by decide) (by decide)
  obtain ⟨a7, b7⟩ := T 8 8 0 (by decide) (by decide) (by decide) (by decide)
  obtain ⟨a8, b8⟩ := T 8 8 1 (by decide) (by decide) (by decide) (by decide)
  norm_num at a1 a2 a3 a4 a5 a6 a7 a8 b1 b2 b3 b4 b5 b6 b7 b8
  -- the integrand without the harmonic 24
  have s1 := TrigPoly.add _ _ (TrigPoly.smul 100 _ a1) (TrigPoly.smul 20 _ a2)
  have s2 := TrigPoly.add _ _ s1 (TrigPoly.smul 1 _ a3)
  have s3 := TrigPoly.add _ _ s2 (TrigPoly.smul (50 + 6 / 16 ^ 3) _ a4)
  have s4 := TrigPoly.add _ _ s3 (TrigPoly.smul (10 + 20 / 16) _ a5)
  have s5 := TrigPoly.add _ _ s4 (TrigPoly.smul (1 / 2 + 2 / 16) _ a6)
  have s6 := TrigPoly.add _ _ s5 (TrigPoly.smul (10 / 16) _ a7)
  have s7 := TrigPoly.add _ _ s6 (TrigPoly.smul (1 / 16 + 1 / 16 ^ 2) _ a8)
  set f0 : ℝ → ℝ → ℝ := fun θ φ => 100 * Real.cos θ + 20 * (Real.cos θ * Real.cos θ) + 1 * (Real.cos θ * Real.cos θ * Real.cos θ) + (50 + 6 / 16 ^ 3) * Real.cos (8 * θ) +
    (10 + 20 / 16) * (Real.cos (8 * θ) * Real.cos θ) + (1 / 2 + 2 / 16) * (Real.cos (8 * θ) * Real.cos θ * Real.cos θ) + (10 / 16) * (Real.cos (8 * θ) * Real.cos (8 * θ)) +
    (1 / 16 + 1 / 16 ^ 2) * (Real.cos (8 * θ) * Real.cos (8 * θ) * Real.cos θ) with hf0
  have t0 : TrigPoly s.nfp 23 0 f0 := s7
  have m0 : integralMean f0 = 10 + 5 / 16 := by
    rw [hf0, mean_add s6 (.smul _ _ a8), mean_add s5 (.smul _ _ a7), mean_add s4 (.smul _ _ a6), mean_add s3 (.smul _ _ a5), mean_add s2 (.smul _ _ a4), mean_add s1 (.smul _ _ a3),
      mean_add (.smul _ _ a1) (.smul _ _ a2), mean_smul, mean_smul, mean_smul, mean_smul, mean_smul, mean_smul, mean_smul, mean_smul, b1, b2, b3, b4, b5, b6, b7, b8]
    norm_num
  have fe (θ φ : ℝ) : S.R θ φ * (S.R θ φ * deriv (fun t => S.Z t φ) θ) = f0 θ φ + 2 / 16 ^ 3 * Real.cos ((24 : Int) * θ) := by
    have : Real.cos ((24 : Int) * θ) = 4 * Real.cos (8 * θ) ^ 3 - 3 * Real.cos (8 * θ) := by
      rw [← Real.cos_three_mul]; push_cast; ring_nf
    rw [hR, zu, this, hf0]
    ring
  have c24 : TrigPoly s.nfp 24 0 (fun θ _ => 2 / 16 ^ 3 * Real.cos ((24 : Int) * θ)) := .smul _ _ (trig_cos 24 (by decide) le_rfl)
  -- the true value
  have mf : integralMean (fun θ φ => S.R θ φ * (S.R θ φ * deriv (fun t => S.Z t φ) θ)) = 10 + 5 / 16 := by
    have e : (fun θ φ => S.R θ φ * (S.R θ φ * deriv (fun t => S.Z t φ) θ)) = fun θ φ => f0 θ φ + 2 / 16 ^ 3 * Real.cos ((24 : Int) * θ) := by funext θ φ; exact fe θ φ
    have up {g : ℝ → ℝ → ℝ} (hg : TrigPoly s.nfp 23 0 g) : TrigPoly s.nfp 24 0 g := by
      induction hg with
      | cos a b ha hb => exact .cos a b (by omega) hb
      | sin a b ha hb => exact .sin a b (by omega) hb
      | add f g _ _ i1 i2 => exact .add _ _ i1 i2
      | smul c f _ i => exact .smul _ _ i
    rw [e, mean_add (up t0) c24, m0, mean_smul, mean_trig_cos hnf]
    norm_num
  -- the value of the code
  have g0 := average_exact hs (A := 23) (B := 0) (by omega) (by omega) t0 (fun _ θ φ => by rw [hf0]; simp only [mul_neg, Real.cos_neg])
    (fun kl => f0 (thetaGrid s (kl % 13)) 0) (fun k l k0 k1 l0 l1 => by
      have e : k = 0 := by omega
      rw [e, h7]
      rw [h7] at l1
      simp only [zero_mul, zero_add, Int.emod_eq_of_lt l0 l1]
      rfl)
  have alias24 (l : Int) : Real.cos ((24 : Int) * thetaGrid s l) = 1 := by
    unfold thetaGrid
    rw [h5, show ((24 : Int) : ℝ) * (2 * Real.pi * l / (24 : Int)) = l * (2 * Real.pi) by push_cast; ring]
    exact Real.cos_int_mul_two_pi l
  have hsum : ∑ kl ∈ Ico 0 (sampled S).s.nZnT, (sampled S).rb kl * ((sampled S).rb kl * (sampled S).zub kl * (sampled S).w kl) = 10 + 5 / 16 + 2 / 16 ^ 3 := by
    have hw := wInt_sum hs
    rw [← m0, ← g0]
    have hw' : (2 : ℝ) / 16 ^ 3 = ∑ kl ∈ Ico 0 s.nZnT, 2 / 16 ^ 3 * (Sizes.wInt s (kl.tmod s.nThetaEff) : ℝ) := by rw [← Finset.mul_sum, hw, mul_one]
    rw [hw', ← Finset.sum_add_distrib]
    refine Finset.sum_congr rfl fun kl hkl => ?_
    have hkl' := Finset.mem_Ico.1 hkl
    have hk13 : kl < 13 := by have : (sampled S).s.nZnT = 13 := h9; omega
    have r := hsam.r 0 kl le_rfl (by show 0 < s.nZeta; omega) hkl'.1 (by show kl < s.nThetaEff; omega)
    have z := hsam.zu 0 kl le_rfl (by show 0 < s.nZeta; omega) hkl'.1 (by show kl < s.nThetaEff; omega)
    rw [zero_mul, zero_add] at r z
    have r' : (sampled S).rb kl = S.R (thetaGrid s kl) (phiGrid s 0) := r
    have z' : (sampled S).zub kl = deriv (fun t => S.Z t (phiGrid s 0)) (thetaGrid s kl) := z
    have := fe (thetaGrid s kl) (phiGrid s 0)
    rw [alias24, mul_one] at this
    rw [Int.emod_eq_of_lt hkl'.1 hk13, ← add_mul]
    have e2 : f0 (thetaGrid s kl) 0 = f0 (thetaGrid s kl) (phiGrid s 0) := rfl
    rw [e2, ← this, r', z']
    show _ = _ * (sampled S).w kl
    ring
  unfold GeomIn.volume_p GeomIn.sumKl
  rw [forRange_add, zero_add, hsum, ← over_volume, ← mean_abs, mf, abs_of_pos (by norm_num), abs_of_pos (by norm_num)]
  ring

/-! ## the vertical extent and the symmetry planes -/

/-- **C92** (vertical extent fails): a surface below the midplane, `Z = -10 + sin θ` (`lasym`), has `zmax_surf = 0` and `height = 0`: neither the largest `Z`, which is at most -9, nor the largest
    `|Z|`; the true height is 2, up to the grid -/
theorem C92_zmax_fails : ∃ (I : GeomIn) (S : Surface I.s), Sizes.mk true 1 2 0 0 0 2 0 = .ok I.s ∧ Samples I S ∧ (∀ θ φ, S.Z θ φ ≤ -9) ∧ I.zmax_surf = 0 ∧ I.heightOf 0 = 0 ∧
    S.Z (Real.pi / 2) 0 - S.Z (-(Real.pi / 2)) 0 = 2 := by
  obtain ⟨s, hs, h1, h2, h3, h4, h5⟩ := sizes2 true
  set S := torus s (by omega) (by omega) 10 1 (-10) 1 0 (by omega) (by omega) 0 (fun h => by rw [h1] at h; cases h) with hS
  have hZ (θ φ : ℝ) : S.Z θ φ = -10 + Real.sin θ := by rw [hS]; simp [torus]
  have hle (θ φ : ℝ) : S.Z θ φ ≤ -9 := by rw [hZ]; have := Real.sin_le_one θ; linarith
  have hsam := sampled_samples S
  have hs' : Sizes.mk true 1 2 0 0 0 2 0 = .ok (sampled S).s := hs
  obtain ⟨hE, _, hn⟩ := eff_pos hs'
  obtain ⟨q1, q2, q3, q4, q5⟩ := nZnT_eq hs'
  refine ⟨sampled S, S, hs, hsam, hle, ?_, ?_, ?_⟩
  · obtain ⟨a1, a2, a3⟩ := maxLoop hn (sampled S).zb 0
    rcases a3 with a3 | ⟨kl, k0, k1, a3⟩
    · exact a3
    · obtain ⟨k, l, c1, c2, c3, c4, e⟩ := split_kl hs' k0 k1
      exfalso
      rw [a3, e, hsam.z k l c1 c2 c3 c4] at a1
      have := hle (thetaGrid s l) (phiGrid s k)
      have a1' : 0 ≤ S.Z (thetaGrid s l) (phiGrid s k) := a1
      linarith
  · obtain ⟨a1, a2, a3⟩ := maxLoop hE.le (fun l => (sampled S).zb (0 * (sampled S).s.nThetaEff + l)) 0
    have e : (sampled S).heightOf 0 = forRange 0 (sampled S).s.nThetaEff (fun l acc => max acc ((sampled S).zb (0 * (sampled S).s.nThetaEff + l))) 0 * 2 := by
      unfold GeomIn.heightOf
      simp only [lcfs_index q1]
      rfl
    rcases a3 with a3 | ⟨l, l0, l1, a3⟩
    · rw [e, a3, zero_mul]
    · exfalso
      rw [a3, hsam.z 0 l le_rfl (by omega) l0 l1] at a1
      have := hle (thetaGrid s l) (phiGrid s 0)
      have a1' : 0 ≤ S.Z (thetaGrid s l) (phiGrid s 0) := a1
      linarith
  · rw [hZ, hZ, Real.sin_neg, Real.sin_pi_div_two]; norm_num

/-- **C92** (vertical extent fails, symmetric case): with the other direction of the poloidal angle, `Z = -sin θ`, the computed half of the surface is the lower one and `zmax_surf = 0`,
    although the surface reaches up to `Z = 1` -/
theorem C92_zmax_fails_symmetric : ∃ (I : GeomIn) (S : Surface I.s), Sizes.mk false 1 2 0 0 0 2 0 = .ok I.s ∧ Samples I S ∧ I.zmax_surf = 0 ∧ S.Z (-(Real.pi / 2)) 0 = 1 := by
  obtain ⟨s, hs, h1, h2, h3, h4, h5⟩ := sizes2 false
  set S := torus s (by omega) (by omega) 10 1 0 (-1) 0 (by omega) (by omega) 0 (fun _ => rfl) with hS
  have hZ (θ φ : ℝ) : S.Z θ φ = -Real.sin θ := by rw [hS]; simp [torus]
  have hsam := sampled_samples S
  have hs' : Sizes.mk false 1 2 0 0 0 2 0 = .ok (sampled S).s := hs
  obtain ⟨hE, _, hn⟩ := eff_pos hs'
  obtain ⟨q1, q2, q3, q4, q5⟩ := nZnT_eq hs
  rw [h1] at q2
  simp only [Bool.false_eq_true, if_false] at q2
  refine ⟨sampled S, S, hs, hsam, ?_, by rw [hZ, Real.sin_neg, Real.sin_pi_div_two, neg_neg]⟩
  obtain ⟨a1, a2, a3⟩ := maxLoop hn (sampled S).zb 0
  rcases a3 with a3 | ⟨kl, k0, k1, a3⟩
  · exact a3
  · obtain ⟨k, l, c1, c2, c3, c4, e⟩ := split_kl hs' k0 k1
    refine le_antisymm ?_ a1
    show forRange 0 (sampled S).s.nZnT (fun kl acc => max acc ((sampled S).zb kl)) 0 ≤ 0
    rw [a3, e, hsam.z k l c1 c2 c3 c4, hZ, neg_nonpos]
    have l1' : l < s.nThetaReduced := by rw [← q2]; exact c4
    refine Real.sin_nonneg_of_nonneg_of_le_pi ?_ ?_
    · show 0 ≤ thetaGrid s l
      unfold thetaGrid
      have : (0 : ℝ) ≤ l := by exact_mod_cast c3
      have : (0 : ℝ) ≤ s.nThetaEven := by exact_mod_cast (by omega : (0 : Int) ≤ s.nThetaEven)
      have := Real.pi_pos
      positivity
    · show thetaGrid s l ≤ Real.pi
      unfold thetaGrid
      have hl : (l : ℝ) ≤ 5 := by exact_mod_cast (by omega : l ≤ 5)
      rw [show s.nThetaEven = 10 by omega]
      have := Real.pi_pos
      push_cast
      rw [div_le_iff₀ (by norm_num)]
      nlinarith

/-- **C92** (waist fails): with `lasym` the inner point is read with the stride of the half grid, that is from another surface.  The torus with radii 10 and 1, with zeros on the inner surfaces,
    has the waist 11 instead of 2 -/
theorem C92_waist_fails : ∃ (I : GeomIn) (S : Surface I.s), Sizes.mk true 1 2 0 0 0 2 0 = .ok I.s ∧ Samples I S ∧ I.waistOf 0 = 11 ∧ S.R 0 0 - S.R Real.pi 0 = 2 := by
  obtain ⟨s, hs, h1, h2, h3, h4, h5⟩ := sizes2 true
  set S := torus s (by omega) (by omega) 10 1 0 1 0 (by omega) (by omega) 0 (fun _ => rfl) with hS
  have hR (θ φ : ℝ) : S.R θ φ = 10 + Real.cos θ := by rw [hS]; simp [torus]
  have hsam := sampled_samples S
  obtain ⟨q1, q2, q3, q4, q5⟩ := nZnT_eq hs
  rw [h1, if_pos rfl] at q2
  refine ⟨sampled S, S, hs, hsam, ?_, by rw [hR, hR, Real.cos_zero, Real.cos_pi]; norm_num⟩
  have hr := hsam.r 0 0 le_rfl (by show 0 < s.nZeta; omega) le_rfl (by show 0 < s.nThetaEff; omega)
  have e0 : thetaGrid s 0 = 0 := by unfold thetaGrid; simp
  unfold GeomIn.waistOf
  have hq : (sampled S).s.nZnT = (sampled S).s.nThetaEff * (sampled S).s.nZeta := q1
  simp only
  rw [lcfs_index hq]
  have out : (sampled S).R.gridF .r_e (((sampled S).ns - 1) * (sampled S).s.nZnT + (0 * (sampled S).s.nThetaEff + 0)) +
      (sampled S).R.gridF .r_o (((sampled S).ns - 1) * (sampled S).s.nZnT + (0 * (sampled S).s.nThetaEff + 0)) = 11 := by
    refine (show _ = (sampled S).rb (0 * (sampled S).s.nThetaEff + 0) from rfl).trans (hr.trans ?_)
    rw [hR]
    show 10 + Real.cos (thetaGrid s 0) = 11
    rw [e0, Real.cos_zero]; norm_num
  have inn (c : GridF) : (sampled S).R.gridF c (((sampled S).ns - 1) * (sampled S).s.nZeta * (sampled S).s.nThetaReduced + 0 * (sampled S).s.nThetaReduced + ((sampled S).s.nThetaReduced - 1)) = 0 := by
    refine if_pos ?_
    show (3 - 1) * s.nZeta * s.nThetaReduced + 0 * s.nThetaReduced + (s.nThetaReduced - 1) < 2 * s.nZnT
    rw [q1, q2, h4, h5, show s.nThetaEven = 10 by omega]
    decide
  rw [out, add_mul, inn, inn]
  norm_num

end Verif.Output
