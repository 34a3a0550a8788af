import Verif.Transform.Axisym
import Verif.Transform.Agree
import Verif.Transform.Series

/-!
# Axisymmetric transforms as sums
-/
namespace Verif.Transform
open Verif Verif.Fourier Partition Finset

variable {c : Ctx}

theorem paritySum_eq (n : Int) (v : Int → ℝ) (e : Bool) :
    paritySum n v e = ∑ m ∈ Ico 0 n, if isEven m = e then v m else 0 := by
  unfold paritySum
  have h := forRange_add (lo := 0) (hi := n) (M := Bool → ℝ) (fun m e => if isEven m = e then v m else 0) 0
  have e1 : forRange 0 n (fun m (y : Bool → ℝ) => fun e => if isEven m = e then y e + v m else y e) (fun _ => 0) =
      forRange 0 n (fun m (y : Bool → ℝ) => y + fun e => if isEven m = e then v m else 0) 0 := by
    refine forRange_congr _ _ _ fun m y _ _ => ?_
    funext e
    simp only [Pi.add_apply]
    split <;> simp
  rw [e1, h]
  simp [Finset.sum_apply]

/-- what the modes of one parity add at a point -/
noncomputable def val2d (a : GArr) (src : Coef → Int → ℝ) (p : Int → PolEntry) (m : Int) : ℝ :=
  match a with
  | .r1 => src .rcc m * (p m).cosmu
  | .ru => src .rcc m * (p m).sinmum
  | .z1 => src .zsc m * (p m).sinmu
  | .zu => src .zsc m * (p m).cosmum
  | .lu => src .lsc m * (p m).cosmum
  | _ => 0

theorem point2d_apply (x : Coef → Int → ℝ) (jF l : Int) (g : Arr → Int → ℝ) (A : Arr) (i : Int) :
    point2d c x jF l g A i = g A i + match A with
      | .geo a e => if i = (jF - c.r.nsMinF1) * c.s.nThetaEff + l then
          ∑ m ∈ Ico 0 (numM c jF), (if isEven m = e then
            val2d a (fun a m => x a ((jF - c.r.nsMinF1) * c.s.mnsize + m)) (fun m => polAt c m l) m else 0) else 0
      | _ => 0 := by
  unfold point2d
  dsimp only
  simp only [addTo_apply, paritySum_eq]
  cases A with
  | rCon => simp
  | zCon => simp
  | geo a e =>
    cases a <;> cases e <;>
      simp only [Arr.geo.injEq, reduceCtorEq, true_and, false_and, and_true, and_false, if_false, add_zero, val2d, Bool.false_eq_true,
        Bool.true_eq_false, ite_self, Finset.sum_const_zero]

/-- what a mode adds to a constraint array -/
noncomputable def conVal (c : Ctx) (x : Coef → Int → ℝ) (A : Arr) (jF m l : Int) : ℝ :=
  match A with
  | .rCon => x .rcc ((jF - c.r.nsMinF1) * c.s.mnsize + m) * (polAt c m l).cosmu * conScale c jF m
  | .zCon => x .zsc ((jF - c.r.nsMinF1) * c.s.mnsize + m) * (polAt c m l).sinmu * conScale c jF m
  | _ => 0

theorem con2d_apply (x : Coef → Int → ℝ) (jF m : Int) (g : Arr → Int → ℝ) (A : Arr) (i : Int) :
    con2d c x jF m g A i = g A i + ∑ l ∈ Ico 0 c.s.nThetaReduced, if i = (jF - c.r.nsMinF) * c.s.nThetaEff + l then
      conVal c x A jF m l else 0 := by
  unfold con2d
  dsimp only
  simp only [addTo_eq]
  have e1 := loop_add (lo := 0) (hi := c.s.nThetaReduced) (fun l (g : Arr → Int → ℝ) => g + single .rCon ((jF - c.r.nsMinF) * c.s.nThetaEff + l)
    (x .rcc ((jF - c.r.nsMinF1) * c.s.mnsize + m) * (polAt c m l).cosmu * conScale c jF m)) _ (fun _ _ _ _ => rfl) g
  rw [e1]
  rw [loop_add _ _ (fun _ _ _ _ => rfl)]
  simp only [Pi.add_apply, Finset.sum_apply, single_apply]
  cases A with
  | geo a e => simp [conVal]
  | rCon => simp [conVal]
  | zCon => simp [conVal]

theorem fourierToReal2d_geo (x : Coef → Int → ℝ) (g : Arr → Int → ℝ) (a : GArr) (e : Bool) (i : Int) :
    fourierToReal2d c x g (.geo a e) i =
      (if isGeo2d (.geo a e) = true ∧ 0 ≤ i ∧ i < (c.r.nsMaxF1 - c.r.nsMinF1) * c.s.nThetaEff then 0 else g (.geo a e) i) +
      ∑ jF ∈ Ico c.r.nsMinF1 c.r.nsMaxF1, ∑ l ∈ Ico 0 c.s.nThetaReduced,
        if i = (jF - c.r.nsMinF1) * c.s.nThetaEff + l then ∑ m ∈ Ico 0 (numM c jF), (if isEven m = e then
            val2d a (fun a m => x a ((jF - c.r.nsMinF1) * c.s.mnsize + m)) (fun m => polAt c m l) m else 0) else 0 := by
  unfold fourierToReal2d
  rw [forRange_addAll (g := fun jF A i => ∑ m ∈ Ico 0 (numM c jF), ∑ l ∈ Ico 0 c.s.nThetaReduced,
      if i = (jF - c.r.nsMinF) * c.s.nThetaEff + l then
      conVal c x A jF m l else 0)]
  · rw [forRange_addAll (g := fun jF A i => ∑ l ∈ Ico 0 c.s.nThetaReduced, match A with
      | .geo a e => if i = (jF - c.r.nsMinF1) * c.s.nThetaEff + l then
          ∑ m ∈ Ico 0 (numM c jF), (if isEven m = e then
            val2d a (fun a m => x a ((jF - c.r.nsMinF1) * c.s.mnsize + m)) (fun m => polAt c m l) m else 0) else 0
      | _ => 0)]
    · simp [fillZero, isCon, conVal]
    · intro jF s A i _ _
      exact forRange_addAll _ _ (fun l s A i _ _ => point2d_apply x jF l s A i) s A i
  · intro jF s A i _ _
    exact forRange_addAll _ _ (fun m s A i _ _ => con2d_apply x jF m s A i) s A i

theorem fourierToReal2d_con (x : Coef → Int → ℝ) (g : Arr → Int → ℝ) (A : Arr) (hA : isCon A = true) (i : Int) :
    fourierToReal2d c x g A i =
      (if 0 ≤ i ∧ i < (c.r.nsMaxFIncludingLcfs - c.r.nsMinF) * c.s.nThetaEff then 0 else g A i) +
      ∑ jF ∈ Ico c.r.nsMinF c.r.nsMaxFIncludingLcfs, ∑ m ∈ Ico 0 (numM c jF), ∑ l ∈ Ico 0 c.s.nThetaReduced,
      if i = (jF - c.r.nsMinF) * c.s.nThetaEff + l then
      conVal c x A jF m l else 0 := by
  unfold fourierToReal2d
  rw [forRange_addAll (g := fun jF A i => ∑ m ∈ Ico 0 (numM c jF), ∑ l ∈ Ico 0 c.s.nThetaReduced,
      if i = (jF - c.r.nsMinF) * c.s.nThetaEff + l then
      conVal c x A jF m l else 0)]
  · rw [forRange_addAll (g := fun jF A i => ∑ l ∈ Ico 0 c.s.nThetaReduced, match A with
      | .geo a e => if i = (jF - c.r.nsMinF1) * c.s.nThetaEff + l then
          ∑ m ∈ Ico 0 (numM c jF), (if isEven m = e then
            val2d a (fun a m => x a ((jF - c.r.nsMinF1) * c.s.mnsize + m)) (fun m => polAt c m l) m else 0) else 0
      | _ => 0)]
    · cases A with
      | geo a e => simp [isCon] at hA
      | rCon => simp [fillZero, isCon, isGeo2d]
      | zCon => simp [fillZero, isCon, isGeo2d]
    · intro jF s A i _ _
      exact forRange_addAll _ _ (fun l s A i _ _ => point2d_apply x jF l s A i) s A i
  · intro jF s A i _ _
    exact forRange_addAll _ _ (fun m s A i _ _ => con2d_apply x jF m s A i) s A i

/-- a value that is stored at one point of one surface -/
theorem pick2 (j0 jlo jhi : Int) (V : Int → Int → ℝ) {jF l : Int} (hj : jlo ≤ jF ∧ jF < jhi)
    (hl : 0 ≤ l ∧ l < c.s.nThetaReduced) (ht : c.s.nThetaReduced ≤ c.s.nThetaEff) :
    ∑ jF' ∈ Ico jlo jhi, ∑ l' ∈ Ico 0 c.s.nThetaReduced,
      (if (jF - j0) * c.s.nThetaEff + l = (jF' - j0) * c.s.nThetaEff + l' then V jF' l' else 0) = V jF l := by
  have inj : ∀ {j' l'}, l' ∈ Ico 0 c.s.nThetaReduced → (jF - j0) * c.s.nThetaEff + l = (j' - j0) * c.s.nThetaEff + l' →
      jF = j' ∧ l = l' := by
    intro j' l' hl' h
    rw [Finset.mem_Ico] at hl'
    obtain ⟨h1, h2⟩ := flat_inj hl.1 (show l < c.s.nThetaEff by omega) hl'.1 (by omega) h
    exact ⟨by omega, h2⟩
  rw [Finset.sum_eq_single jF, Finset.sum_eq_single l, if_pos rfl]
  · intro l' hl' hne
    exact if_neg fun h => hne (inj hl' h).2.symm
  · intro hh; exact absurd (Finset.mem_Ico.2 hl) hh
  · intro j' _ hne
    exact Finset.sum_eq_zero fun l' hl' => if_neg fun h => hne (inj hl' h).1.symm
  · intro hh; exact absurd (Finset.mem_Ico.2 hj) hh

/-- **axisymmetric geometry at a point** -/
theorem geo2d_apply (x : Coef → Int → ℝ) (g : Arr → Int → ℝ) (a : GArr) (e : Bool) (ha : isGeo2d (.geo a e) = true) {jF l : Int}
    (hj : c.r.nsMinF1 ≤ jF ∧ jF < c.r.nsMaxF1) (hl : 0 ≤ l ∧ l < c.s.nThetaReduced) (ht : c.s.nThetaReduced ≤ c.s.nThetaEff) :
    fourierToReal2d c x g (.geo a e) ((jF - c.r.nsMinF1) * c.s.nThetaEff + l) =
      ∑ m ∈ Ico 0 (numM c jF), (if isEven m = e then
        val2d a (fun a m => x a ((jF - c.r.nsMinF1) * c.s.mnsize + m)) (fun m => polAt c m l) m else 0) := by
  have hr : 0 ≤ (jF - c.r.nsMinF1) * c.s.nThetaEff + l ∧
      (jF - c.r.nsMinF1) * c.s.nThetaEff + l < (c.r.nsMaxF1 - c.r.nsMinF1) * c.s.nThetaEff := by
    constructor
    · have : 0 ≤ (jF - c.r.nsMinF1) * c.s.nThetaEff := mul_nonneg (by omega) (by omega)
      omega
    · have := mul_le_mul_of_nonneg_right (show jF - c.r.nsMinF1 + 1 ≤ c.r.nsMaxF1 - c.r.nsMinF1 by omega) (show 0 ≤ c.s.nThetaEff by omega)
      linarith
  rw [fourierToReal2d_geo, if_pos ⟨ha, hr⟩, zero_add, pick2 (V := fun jF l => ∑ m ∈ Ico 0 (numM c jF), (if isEven m = e then
        val2d a (fun a m => x a ((jF - c.r.nsMinF1) * c.s.mnsize + m)) (fun m => polAt c m l) m else 0)) (hj := hj) (hl := hl) (ht := ht)]

end Verif.Transform
