import Verif.Transform.Model
import Mathlib.Algebra.BigOperators.Pi
import Mathlib.Tactic.Abel

/-!
# Loops that add

All accumulation loops of the transforms add an amount that does not depend on the array. In the additive group of
families of arrays, such a loop is a sum.
-/
namespace Verif.Transform
open Verif Verif.Fourier Partition Finset

section
variable {C : Type} [DecidableEq C]

/-- the family that is `v` at one place and 0 elsewhere -/
def single (a : C) (i : Int) (v : ℝ) : C → Int → ℝ := fun a' j => if a' = a ∧ j = i then v else 0

theorem addTo_eq (g : C → Int → ℝ) (a : C) (i : Int) (v : ℝ) : addTo g a i v = g + single a i v := by
  funext a' j
  rw [addTo_apply]; rfl

theorem single_sum {ι : Type} (S : Finset ι) (a : C) (i : Int) (v : ι → ℝ) :
    single a i (∑ k ∈ S, v k) = ∑ k ∈ S, single a i (v k) := by
  funext a' j
  simp only [Finset.sum_apply, single]
  split
  · rfl
  · simp

theorem single_apply (a a' : C) (i j : Int) (v : ℝ) : single a i v a' j = if a' = a ∧ j = i then v else 0 := rfl

end

/-- a loop that adds -/
theorem loop_add {C : Type} {lo hi : Int} (f : Int → (C → Int → ℝ) → C → Int → ℝ) (v : Int → C → Int → ℝ)
    (h : ∀ j g, lo ≤ j → j < hi → f j g = g + v j) (g : C → Int → ℝ) :
    forRange lo hi f g = g + ∑ j ∈ Ico lo hi, v j := by
  rw [forRange_congr f (fun j g => g + v j) g (fun j g h1 h2 => h j g h1 h2), forRange_add]

theorem loop2 {C : Type} {lo hi : Int} (a b : Int → C → Int → ℝ) (g : C → Int → ℝ) :
    forRange lo hi (fun l g => g + a l + b l) g = g + (∑ l ∈ Ico lo hi, a l) + ∑ l ∈ Ico lo hi, b l := by
  rw [loop_add _ (fun l => a l + b l) (fun l g _ _ => by rw [add_assoc]), Finset.sum_add_distrib, ← add_assoc]

theorem loop3 {C : Type} {lo hi : Int} (a b d : Int → C → Int → ℝ) (g : C → Int → ℝ) :
    forRange lo hi (fun l g => g + a l + b l + d l) g =
      g + (∑ l ∈ Ico lo hi, a l) + (∑ l ∈ Ico lo hi, b l) + ∑ l ∈ Ico lo hi, d l := by
  rw [loop_add _ (fun l => a l + b l + d l) (fun l g _ _ => by abel), Finset.sum_add_distrib, Finset.sum_add_distrib]
  abel

theorem slot_sum {lo hi : Int} (v : Int → Slot → ℝ) :
    forRange lo hi (fun n y => fun q => y q + v n q) (fun _ => 0) = fun q => ∑ n ∈ Ico lo hi, v n q := by
  have := forRange_add (lo := lo) (hi := hi) (M := Slot → ℝ) v 0
  rw [show (fun (_ : Slot) => (0:ℝ)) = 0 from rfl]
  refine Eq.trans this ?_
  funext q
  simp [Finset.sum_apply]

variable (c : Ctx)

/-- what mode `m` adds on surface `jF` in plane `k`, point `l` -/
noncomputable def pointSum (jF m k : Int) (y : Slot → ℝ) (l : Int) : Arr → Int → ℝ :=
  let p := polAt c m l
  let e := isEven m
  let i := idxKl c c.r.nsMinF1 jF k + l
  single (.geo .ru e) i (y .rmkcc * p.sinmum + y .rmkss * p.cosmum) +
  single (.geo .zu e) i (y .zmksc * p.cosmum + y .zmkcs * p.sinmum) +
  single (.geo .lu e) i (y .lmksc * p.cosmum + y .lmkcs * p.sinmum) +
  single (.geo .rv e) i (y .rmkcc_n * p.cosmu + y .rmkss_n * p.sinmu) +
  single (.geo .zv e) i (y .zmksc_n * p.sinmu + y .zmkcs_n * p.cosmu) +
  single (.geo .lv e) i (-(y .lmksc_n * p.sinmu + y .lmkcs_n * p.cosmu)) +
  single (.geo .r1 e) i (y .rmkcc * p.cosmu + y .rmkss * p.sinmu) +
  single (.geo .z1 e) i (y .zmksc * p.sinmu + y .zmkcs * p.cosmu) +
  if c.r.nsMinF ≤ jF ∧ jF < c.r.nsMaxFIncludingLcfs then
    single .rCon (idxKl c c.r.nsMinF jF k + l) ((y .rmkcc * p.cosmu + y .rmkss * p.sinmu) * conFactor c jF m) +
    single .zCon (idxKl c c.r.nsMinF jF k + l) ((y .zmksc * p.sinmu + y .zmkcs * p.cosmu) * conFactor c jF m)
  else 0

theorem poloidalDft_eq (jF m k : Int) (y : Slot → ℝ) (g : Arr → Int → ℝ) :
    poloidalDft c jF m k y g = g + ∑ l ∈ Ico 0 c.s.nThetaReduced, pointSum c jF m k y l := by
  unfold poloidalDft
  dsimp only
  simp only [addTo_eq]
  rw [loop3, loop3, loop2]
  unfold pointSum
  by_cases h : c.r.nsMinF ≤ jF ∧ jF < c.r.nsMaxFIncludingLcfs
  · simp only [if_pos h]
    rw [loop2]
    simp only [Finset.sum_add_distrib]
    abel
  · simp only [if_neg h]
    rw [loop2]
    simp only [Finset.sum_add_distrib, Finset.sum_const_zero]
    abel

theorem segAdd_eq (a : Arr) (base : Int) (v : Int → ℝ) (g : Arr → Int → ℝ) :
    segAdd c a base v g = g + ∑ l ∈ Ico 0 c.s.nThetaReduced, single a (base + l) (v l) := by
  unfold segAdd
  exact loop_add _ _ (fun l g _ _ => addTo_eq _ _ _ _) g

theorem poloidalFft_eq (jF m k : Int) (y : Slot → ℝ) (g : Arr → Int → ℝ) :
    poloidalFft c jF m k y g = g + ∑ l ∈ Ico 0 c.s.nThetaReduced, pointSum c jF m k y l := by
  unfold poloidalFft
  dsimp only
  simp only [segAdd_eq]
  unfold pointSum
  by_cases h : c.r.nsMinF ≤ jF ∧ jF < c.r.nsMaxFIncludingLcfs
  · simp only [if_pos h]
    simp only [Finset.sum_add_distrib]
    abel
  · simp only [if_neg h]
    simp only [Finset.sum_add_distrib, Finset.sum_const_zero]
    abel

theorem torSums_eq (x : Coef → Int → ℝ) (jF m k : Int) : torSums c x jF m k = fun q =>
    ∑ n ∈ Ico 0 (c.s.ntor + 1), torTerm (fun a => x a (idxMn c c.r.nsMinF1 jF m n)) (torAt c k n) q := slot_sum _

theorem polSums_eq (d : FArr → Bool → Int → ℝ) (jF m k : Int) : polSums c d jF m k = fun q =>
    ∑ l ∈ Ico 0 c.s.nThetaReduced,
      polTerm (c.xmpq m) (fun a => d a (isEven m) (idxKl c c.r.nsMinF jF k + l)) (polAt c m l) q := slot_sum _

/-- what a surface gets -/
noncomputable def surfaceSum (jF : Int) (y : Int → Int → Slot → ℝ) : Arr → Int → ℝ :=
  ∑ m ∈ Ico 0 c.s.mpol, if jF < jMin m then 0 else
    ∑ k ∈ Ico 0 c.s.nZeta, ∑ l ∈ Ico 0 c.s.nThetaReduced, pointSum c jF m k (y m k) l

/-- the direct transform as a sum -/
theorem fourierToRealDft_eq (x : Coef → Int → ℝ) : fourierToRealDft c x =
    ∑ jF ∈ Ico c.r.nsMinF1 c.r.nsMaxF1, surfaceSum c jF (torSums c x jF) := by
  unfold fourierToRealDft
  rw [loop_add _ (fun jF => surfaceSum c jF (torSums c x jF)), show (fun (_ : Arr) (_ : Int) => (0:ℝ)) = 0 from rfl, zero_add]
  intro jF g _ _
  unfold surfaceSum
  rw [loop_add]
  intro m g _ _
  split
  · rw [add_zero]
  · rw [loop_add]
    intro k g _ _
    exact poloidalDft_eq c jF m k _ g

end Verif.Transform
