import Verif.Nestor.Green
import Verif.Nestor.PerformSum

/-! # `RegularizedIntegrals::update` as plain sums -/
namespace Verif.Nestor
open Verif Finset

namespace GCtx
variable (c : GCtx)

/-- what a point pair adds to the two arrays -/
noncomputable def pair (meas bexni : ℝ) (klp kl : Int) (K G : ℝ) : GArr :=
  single .greenp ((klp - c.ztMin) * c.thetaByZeta + kl) (meas * K) + single .gstore kl (bexni * (meas * G))

/-- kernel values -/
noncomputable def kern (cp sp : ℝ) (klp kl : Int) : ℝ := Real.sqrt (c.ftemp cp sp klp kl) * c.ftemp cp sp klp kl * c.numer cp sp klp kl
noncomputable def green (cp sp : ℝ) (klp kl : Int) : ℝ := Real.sqrt (c.ftemp cp sp klp kl)

noncomputable def sub1 (klp : Int) (tu tv : ℝ) : ℝ := 1 / Real.sqrt (c.ga1Form klp tu tv)
noncomputable def sub2 (klp : Int) (tu tv : ℝ) : ℝ := c.sub1 klp tu tv * (c.ga2Form klp tu tv / c.ga1Form klp tu tv)

noncomputable def tu (klp kl : Int) : ℝ := c.tanu ((kl.tdiv c.s.nZeta - klp.tdiv c.s.nZeta + c.s.nThetaEven).tmod c.s.nThetaEven)
noncomputable def tv (klp kl : Int) : ℝ := c.tanv ((kl.tmod c.s.nZeta - klp.tmod c.s.nZeta + c.s.nZeta).tmod c.s.nZeta)

noncomputable def nearAdd (meas bexni : ℝ) (klp kl : Int) : GArr :=
  c.pair meas bexni klp kl (c.kern (c.sg.cos_per 0) (c.sg.sin_per 0) klp kl - c.sub2 klp (c.tu klp kl) (c.tv klp kl))
    (c.green (c.sg.cos_per 0) (c.sg.sin_per 0) klp kl - c.sub1 klp (c.tu klp kl) (c.tv klp kl))

theorem near_eq (meas bexni : ℝ) (klp kl : Int) (a : GArr) :
    c.near meas bexni klp (kl.tdiv c.s.nZeta) (kl.tmod c.s.nZeta) kl a = a + c.nearAdd meas bexni klp kl := by
  unfold near nearAdd pair kern green sub2 sub1 tu tv
  simp only [addTo_eq, add_assoc]

theorem doLoop_eq (hz : 0 < c.s.nZeta) (meas bexni : ℝ) (klp kl klEnd : Int) (h0 : 0 ≤ kl) (a : GArr) :
    c.doLoop meas bexni klp kl klEnd a = a + ∑ i ∈ Ico kl klEnd, c.nearAdd meas bexni klp i := by
  induction hk : (klEnd - kl).toNat using Nat.strong_induction_on generalizing kl a with
  | _ n ih =>
    rw [doLoop]
    by_cases h : kl < klEnd
    · have e1 : kl.tdiv c.s.nZeta = kl / c.s.nZeta := Int.tdiv_eq_ediv_of_nonneg h0
      have e2 : kl.tmod c.s.nZeta = kl % c.s.nZeta := Int.tmod_eq_emod_of_nonneg h0
      have e3 := Int.mul_ediv_add_emod kl c.s.nZeta
      have m0 := Int.emod_nonneg kl hz.ne'
      have m1 := Int.emod_lt_of_pos kl hz
      have hmul : c.s.nZeta * (kl / c.s.nZeta) = kl / c.s.nZeta * c.s.nZeta := mul_comm _ _
      have hE : kl.tmod c.s.nZeta < c.kEnd kl klEnd := by
        unfold kEnd
        rw [e1, e2]
        exact lt_min m1 (by omega)
      have hE2 : c.kEnd kl klEnd - kl.tmod c.s.nZeta ≤ klEnd - kl := by
        have : c.kEnd kl klEnd ≤ klEnd - kl.tdiv c.s.nZeta * c.s.nZeta := min_le_right _ _
        rw [e1] at this
        rw [e2]; omega
      have hE3 : c.kEnd kl klEnd ≤ c.s.nZeta := min_le_left _ _
      rw [dif_pos ⟨h, hE⟩, ih _ (by omega) _ (by omega) _ rfl]
      rw [forRange_measure (M := GArr) _ (fun a => a) (fun k => c.nearAdd meas bexni klp (kl + (k - kl.tmod c.s.nZeta)))]
      · rw [add_assoc]
        congr 1
        have := sum_shift (kl - kl.tmod c.s.nZeta + kl.tmod c.s.nZeta) (c.kEnd kl klEnd - kl.tmod c.s.nZeta) (c.nearAdd meas bexni klp)
        have h2 : ∑ k ∈ Ico (kl.tmod c.s.nZeta) (c.kEnd kl klEnd), c.nearAdd meas bexni klp (kl + (k - kl.tmod c.s.nZeta))
            = ∑ i ∈ Ico 0 (c.kEnd kl klEnd - kl.tmod c.s.nZeta), c.nearAdd meas bexni klp (kl + i) := by
          have := sum_shift (kl.tmod c.s.nZeta) (c.kEnd kl klEnd - kl.tmod c.s.nZeta)
            (fun k => c.nearAdd meas bexni klp (kl + (k - kl.tmod c.s.nZeta)))
          simp only [add_sub_cancel_left] at this
          rw [this]
          congr 2
          omega
        rw [h2, sum_shift, sum_split _ _ _ (by omega) (by omega)]
      · intro k b hk0 hk1
        have f1 : (kl + (k - kl.tmod c.s.nZeta)).tdiv c.s.nZeta = kl.tdiv c.s.nZeta := by
          rw [e1, e2, Int.tdiv_eq_ediv_of_nonneg (by omega)]
          have : kl + (k - kl % c.s.nZeta) = k + kl / c.s.nZeta * c.s.nZeta := by omega
          rw [this, Int.add_mul_ediv_right _ _ hz.ne', Int.ediv_eq_zero_of_lt (by omega) (by omega), zero_add]
        have f2 : (kl + (k - kl.tmod c.s.nZeta)).tmod c.s.nZeta = k := by
          rw [e2, Int.tmod_eq_emod_of_nonneg (by omega)]
          have : kl + (k - kl % c.s.nZeta) = k + kl / c.s.nZeta * c.s.nZeta := by omega
          rw [this, Int.add_mul_emod_self_right, Int.emod_eq_of_lt (by omega) (by omega)]
        have := c.near_eq meas bexni klp (kl + (k - kl.tmod c.s.nZeta)) b
        rw [f1, f2] at this
        exact this
    · rw [dif_neg (fun h' => h h'.1), Finset.Ico_eq_empty (by omega), sum_empty, add_zero]

theorem far_eq (meas bexni : ℝ) (p klp kl : Int) (a : GArr) : c.far meas bexni p klp kl a
    = a + c.pair meas bexni klp kl (c.kern (c.sg.cos_per p) (c.sg.sin_per p) klp kl) (c.green (c.sg.cos_per p) (c.sg.sin_per p) klp kl) := by
  unfold far pair kern green
  simp only [addTo_eq, add_assoc, mul_assoc]

theorem pair_add (meas bexni : ℝ) (klp kl : Int) (K G K' G' : ℝ) :
    c.pair meas bexni klp kl (K + K') (G + G') = c.pair meas bexni klp kl K G + c.pair meas bexni klp kl K' G' := by
  unfold pair
  rw [mul_add, mul_add, mul_add, single_add, single_add]
  abel

theorem pair_zero (meas bexni : ℝ) (klp kl : Int) : c.pair meas bexni klp kl 0 0 = 0 := by
  unfold pair
  rw [mul_zero, mul_zero, single_zero, single_zero, add_zero]

theorem pair_sum {ι : Type} (s : Finset ι) (meas bexni : ℝ) (klp kl : Int) (K G : ι → ℝ) :
    ∑ i ∈ s, c.pair meas bexni klp kl (K i) (G i) = c.pair meas bexni klp kl (∑ i ∈ s, K i) (∑ i ∈ s, G i) := by
  classical
  induction s using Finset.induction_on with
  | empty => rw [sum_empty, sum_empty, sum_empty, pair_zero]
  | insert i s hi ih => rw [sum_insert hi, sum_insert hi, sum_insert hi, ih, pair_add]

/-- total of the kernels of a pair of points, over the field periods -/
noncomputable def totalK (klp kl : Int) : ℝ :=
  (if kl = klp then 0 else c.kern (c.sg.cos_per 0) (c.sg.sin_per 0) klp kl - c.sub2 klp (c.tu klp kl) (c.tv klp kl))
    + ∑ p ∈ Ico 1 c.s.nfp, c.kern (c.sg.cos_per p) (c.sg.sin_per p) klp kl
noncomputable def totalG (klp kl : Int) : ℝ :=
  (if kl = klp then 0 else c.green (c.sg.cos_per 0) (c.sg.sin_per 0) klp kl - c.sub1 klp (c.tu klp kl) (c.tv klp kl))
    + ∑ p ∈ Ico 1 c.s.nfp, c.green (c.sg.cos_per p) (c.sg.sin_per p) klp kl

noncomputable def bex (klp : Int) : ℝ := c.bDotN (klp - c.ztMin) * Sizes.wInt c.s (klp.tdiv c.s.nZeta)

theorem source_eq (hz : 0 < c.s.nZeta) (klp : Int) (h0 : 0 ≤ klp) (h1 : klp < c.thetaByZeta) (a : GArr) :
    c.source klp a = a + ∑ kl ∈ Ico 0 c.thetaByZeta, c.pair (2 * Real.pi / c.s.nfp) (c.bex klp) klp kl (c.totalK klp kl) (c.totalG klp kl) := by
  unfold source
  simp only []
  rw [c.doLoop_eq hz _ _ _ _ _ le_rfl, c.doLoop_eq hz _ _ _ _ _ (by omega)]
  rw [forRange_measure (M := GArr) _ (fun a => a) (fun p => ∑ kl ∈ Ico 0 c.thetaByZeta, c.pair (2 * Real.pi / c.s.nfp) (c.bex klp) klp kl
    (c.kern (c.sg.cos_per p) (c.sg.sin_per p) klp kl) (c.green (c.sg.cos_per p) (c.sg.sin_per p) klp kl))]
  · have hx : ∑ i ∈ Ico 0 klp, c.nearAdd (2 * Real.pi / c.s.nfp) (c.bex klp) klp i
        + ∑ i ∈ Ico (klp + 1) c.thetaByZeta, c.nearAdd (2 * Real.pi / c.s.nfp) (c.bex klp) klp i
        = ∑ kl ∈ Ico 0 c.thetaByZeta, if kl = klp then 0 else c.nearAdd (2 * Real.pi / c.s.nfp) (c.bex klp) klp kl := by
      rw [← sum_split 0 klp c.thetaByZeta h0 (by omega) fun kl => if kl = klp then (0 : GArr) else _,
        ← sum_split klp (klp + 1) c.thetaByZeta (by omega) (by omega) fun kl => if kl = klp then (0 : GArr) else _]
      have hs : Ico klp (klp + 1) = {klp} := by ext x; simp only [mem_Ico, mem_singleton]; omega
      rw [hs, sum_singleton, if_pos rfl, zero_add]
      congr 1
      · refine sum_congr rfl fun kl hk => ?_
        rw [mem_Ico] at hk; rw [if_neg (by omega)]
      · refine sum_congr rfl fun kl hk => ?_
        rw [mem_Ico] at hk; rw [if_neg (by omega)]
    rw [add_assoc, add_assoc, ← add_assoc (∑ i ∈ Ico 0 klp, _)]
    refine congrArg (a + ·) ?_
    have hb : c.bDotN (klp - c.ztMin) * Sizes.wInt c.s (klp.tdiv c.s.nZeta) = c.bex klp := rfl
    rw [hb, hx, sum_comm, ← sum_add_distrib]
    refine sum_congr rfl fun kl _ => ?_
    rw [pair_sum]
    unfold totalK totalG nearAdd
    split
    · rw [zero_add, zero_add, zero_add]
    · rw [pair_add]
  · intro p b _ _
    rw [forRange_measure (M := GArr) _ (fun a => a)]
    intro kl b _ _
    exact c.far_eq _ _ p klp kl b

/-- the same for an axisymmetric plasma: images instead of field periods -/
noncomputable def axiK (klp kl : Int) : ℝ := ∑ p ∈ Ico 0 images, if p = 0 ∧ kl = klp then 0 else
  c.kern (Real.cos (2 * Real.pi / images * p)) (Real.sin (2 * Real.pi / images * p)) klp kl
    - c.sub2 klp (c.tanu ((kl - klp + c.s.nThetaEven).tmod c.s.nThetaEven)) (tanvPer p)
noncomputable def axiG (klp kl : Int) : ℝ := ∑ p ∈ Ico 0 images, if p = 0 ∧ kl = klp then 0 else
  c.green (Real.cos (2 * Real.pi / images * p)) (Real.sin (2 * Real.pi / images * p)) klp kl
    - c.sub1 klp (c.tanu ((kl - klp + c.s.nThetaEven).tmod c.s.nThetaEven)) (tanvPer p)

theorem axi_source (hz : c.s.nZeta = 1) (klp : Int) (bexni : ℝ) (a : GArr) :
    forRange 0 images (fun p a => forRange 0 c.s.nThetaEven (fun kl a => c.axiPoint (2 * Real.pi / images) bexni klp p kl a) a) a
      = a + ∑ kl ∈ Ico 0 c.thetaByZeta, c.pair (2 * Real.pi / images) bexni klp kl (c.axiK klp kl) (c.axiG klp kl) := by
  have ht : c.thetaByZeta = c.s.nThetaEven := by unfold thetaByZeta; rw [hz, mul_one]
  rw [forRange_measure (M := GArr) _ (fun a => a) (fun p => ∑ kl ∈ Ico 0 c.s.nThetaEven,
    c.pair (2 * Real.pi / images) bexni klp kl
      (if p = 0 ∧ kl = klp then 0 else
        c.kern (Real.cos (2 * Real.pi / images * p)) (Real.sin (2 * Real.pi / images * p)) klp kl
          - c.sub2 klp (c.tanu ((kl - klp + c.s.nThetaEven).tmod c.s.nThetaEven)) (tanvPer p))
      (if p = 0 ∧ kl = klp then 0 else
        c.green (Real.cos (2 * Real.pi / images * p)) (Real.sin (2 * Real.pi / images * p)) klp kl
          - c.sub1 klp (c.tanu ((kl - klp + c.s.nThetaEven).tmod c.s.nThetaEven)) (tanvPer p)))]
  · rw [sum_comm, ht]
    refine congrArg (a + ·) (sum_congr rfl fun kl _ => ?_)
    rw [pair_sum]
    rfl
  · intro p b _ _
    rw [forRange_measure (M := GArr) _ (fun a => a)]
    intro kl b _ _
    unfold axiPoint
    by_cases h : p = 0 ∧ kl = klp
    · rw [if_pos h, if_pos h, if_pos h, pair_zero, add_zero]
    · rw [if_neg h, if_neg h, if_neg h]
      unfold pair kern green sub2 sub1
      rw [ht]
      simp only [addTo_eq, add_assoc, mul_assoc]

theorem pair_greenp (meas bexni : ℝ) (klp kl i : Int) (K G : ℝ) : c.pair meas bexni klp kl K G .greenp i
    = if i = (klp - c.ztMin) * c.thetaByZeta + kl then meas * K else 0 := by
  unfold pair
  simp [single]

theorem pair_gstore (meas bexni : ℝ) (klp kl i : Int) (K G : ℝ) : c.pair meas bexni klp kl K G .gstore i
    = if i = kl then bexni * (meas * G) else 0 := by
  unfold pair
  simp [single]

/-- elements of the arrays after a loop over the source points -/
theorem read (F : Int → Int → ℝ) (G : Int → Int → ℝ) (meas : ℝ) (bexni : Int → ℝ) :
    let a : GArr := ∑ klp ∈ Ico c.ztMin c.ztMax, ∑ kl ∈ Ico 0 c.thetaByZeta, c.pair meas (bexni klp) klp kl (F klp kl) (G klp kl)
    (∀ klp kl, c.ztMin ≤ klp → klp < c.ztMax → 0 ≤ kl → kl < c.thetaByZeta →
      a .greenp ((klp - c.ztMin) * c.thetaByZeta + kl) = meas * F klp kl) ∧
    (∀ kl, 0 ≤ kl → kl < c.thetaByZeta → a .gstore kl = ∑ klp ∈ Ico c.ztMin c.ztMax, bexni klp * (meas * G klp kl)) := by
  intro a
  have inj : ∀ {x y i j : Int}, 0 ≤ i → i < c.thetaByZeta → 0 ≤ j → j < c.thetaByZeta →
      (x * c.thetaByZeta + i = y * c.thetaByZeta + j ↔ x = y ∧ i = j) := by
    intro x y i j h0 h1 h2 h3
    constructor
    · intro e
      have hN : 0 < c.thetaByZeta := by omega
      have q1 := congrArg (· / c.thetaByZeta) e
      have q2 := congrArg (· % c.thetaByZeta) e
      simp only [Int.add_comm _ i, Int.add_comm _ j, Int.add_mul_ediv_right _ _ hN.ne', Int.add_mul_emod_self_right] at q1 q2
      rw [Int.ediv_eq_zero_of_lt h0 h1, Int.ediv_eq_zero_of_lt h2 h3] at q1
      rw [Int.emod_eq_of_lt h0 h1, Int.emod_eq_of_lt h2 h3] at q2
      exact ⟨by omega, q2⟩
    · rintro ⟨rfl, rfl⟩; rfl
  constructor
  · intro klp kl h0 h1 h2 h3
    show (∑ klp ∈ _, ∑ kl ∈ _, _ : GArr) _ _ = _
    rw [Finset.sum_apply, Finset.sum_apply, sum_eq_single klp]
    · rw [Finset.sum_apply, Finset.sum_apply, sum_eq_single kl]
      · rw [pair_greenp, if_pos rfl]
      · intro k hk hne
        rw [mem_Ico] at hk
        rw [pair_greenp, if_neg]
        intro h
        exact hne ((inj h2 h3 hk.1 hk.2).1 h).2.symm
      · intro h; exact absurd (mem_Ico.2 ⟨h2, h3⟩) h
    · intro k hk hne
      rw [mem_Ico] at hk
      rw [Finset.sum_apply, Finset.sum_apply]
      refine sum_eq_zero fun i hi => ?_
      rw [mem_Ico] at hi
      rw [pair_greenp, if_neg]
      intro h
      have := ((inj h2 h3 hi.1 hi.2).1 h).1
      omega
    · intro h; exact absurd (mem_Ico.2 ⟨h0, h1⟩) h
  · intro kl h2 h3
    show (∑ klp ∈ _, ∑ kl ∈ _, _ : GArr) _ _ = _
    rw [Finset.sum_apply, Finset.sum_apply]
    refine sum_congr rfl fun klp _ => ?_
    rw [Finset.sum_apply, Finset.sum_apply, sum_eq_single kl]
    · rw [pair_gstore, if_pos rfl]
    · intro k hk hne
      rw [pair_gstore, if_neg (fun h => hne h.symm)]
    · intro h; exact absurd (mem_Ico.2 ⟨h2, h3⟩) h

theorem update_sum (hz : 0 < c.s.nZeta) (hz1 : c.s.nZeta ≠ 1) (h0 : 0 ≤ c.ztMin) (h1 : c.ztMax ≤ c.thetaByZeta) :
    c.update = ∑ klp ∈ Ico c.ztMin c.ztMax, ∑ kl ∈ Ico 0 c.thetaByZeta,
      c.pair (2 * Real.pi / c.s.nfp) (c.bex klp) klp kl (c.totalK klp kl) (c.totalG klp kl) := by
  unfold update
  rw [if_neg hz1, forRange_measure (M := GArr) _ (fun a => a) _ (fun klp b g1 g2 => c.source_eq hz klp (by omega) (by omega) b)]
  exact zero_add _

theorem updateAxi_sum (hz : c.s.nZeta = 1) :
    c.update = ∑ klp ∈ Ico c.ztMin c.ztMax, ∑ kl ∈ Ico 0 c.thetaByZeta,
      c.pair (2 * Real.pi / images) (c.bDotN (klp - c.ztMin) * Sizes.wInt c.s klp) klp kl (c.axiK klp kl) (c.axiG klp kl) := by
  unfold update updateAxi
  rw [if_pos hz]
  simp only []
  rw [forRange_measure (M := GArr) _ (fun a => a) _ (fun klp b _ _ => c.axi_source hz klp (c.bDotN (klp - c.ztMin) * Sizes.wInt c.s klp) b)]
  exact zero_add _

end GCtx
end Verif.Nestor
