import Verif.Radial.Spec
import Mathlib.Tactic.Ring
import Mathlib.Tactic.Linarith
import Mathlib.Algebra.BigOperators.Ring.Finset

/-! # The elements of the matrix are those of the bilinear form -/
namespace Verif.Radial
open Verif Finset

namespace Glob
variable (G : Glob)

noncomputable def p (X : GCoord) (m n j : Int) : ℝ := G.cell X m n (unit j) (unit j) j
noncomputable def q (X : GCoord) (m n j : Int) : ℝ := G.cell X m n (unit j) (unit (j + 1)) j
noncomputable def r (X : GCoord) (m n j : Int) : ℝ := G.cell X m n (unit (j + 1)) (unit (j + 1)) j

/-- the terms of the sums -/
noncomputable def rad0 (X : GCoord) (odd : Bool) (j kl : Int) : ℝ :=
  if odd then G.sp j * (-(X.xu12 j kl / G.deltaS) + 0.25 * (X.xuE j kl / G.sqrtSH j + X.xuO j kl) / G.sqrtSH j) else -(X.xu12 j kl / G.deltaS)
noncomputable def rad1 (X : GCoord) (odd : Bool) (j kl : Int) : ℝ :=
  if odd then G.sm j * (X.xu12 j kl / G.deltaS + 0.25 * (X.xuE (j + 1) kl / G.sqrtSH j + X.xuO (j + 1) kl) / G.sqrtSH j) else X.xu12 j kl / G.deltaS
noncomputable def pol0 (X : GCoord) (odd : Bool) (j kl : Int) : ℝ :=
  (if odd then G.sp j else 1) * (0.5 * (X.xs j kl + 0.5 / G.sqrtSH j * X.x1O j kl))
noncomputable def pol1 (X : GCoord) (odd : Bool) (j kl : Int) : ℝ :=
  (if odd then G.sm j else 1) * (0.5 * (X.xs j kl + 0.5 / G.sqrtSH j * X.x1O (j + 1) kl))

theorem dRad_eq (X : GCoord) (odd : Bool) (x : Int → ℝ) (j kl : Int) :
    G.dRad X odd x j kl = G.rad0 X odd j kl * x j + G.rad1 X odd j kl * x (j + 1) := by
  unfold dRad inner outer rad0 rad1
  cases odd
  · simp only [Bool.false_eq_true, if_false]; ring
  · simp only [if_true]; ring

theorem dPol_eq (X : GCoord) (odd : Bool) (x : Int → ℝ) (j kl : Int) :
    G.dPol X odd x j kl = G.pol0 X odd j kl * x j + G.pol1 X odd j kl * x (j + 1) := by
  unfold dPol inner outer pol0 pol1
  cases odd
  · simp only [Bool.false_eq_true, if_false]; ring
  · simp only [if_true]; ring

theorem p_eq (X : GCoord) (m n j : Int) : G.p X m n j = ∑ kl ∈ Ico 0 G.s.nZnT,
    (G.W j kl * (G.rad0 X (decide (m % 2 = 1)) j kl ^ 2 + m ^ 2 * G.pol0 X (decide (m % 2 = 1)) j kl ^ 2) + G.Wn j kl * (n * G.s.nfp) ^ 2) := by
  unfold p cell
  refine sum_congr rfl fun kl _ => ?_
  simp only [dRad_eq, dPol_eq, unit, if_true, show ¬ (j + 1 = j) by omega, if_false]
  ring

theorem q_eq (X : GCoord) (m n j : Int) : G.q X m n j = ∑ kl ∈ Ico 0 G.s.nZnT,
    G.W j kl * (G.rad0 X (decide (m % 2 = 1)) j kl * G.rad1 X (decide (m % 2 = 1)) j kl
      + m ^ 2 * (G.pol0 X (decide (m % 2 = 1)) j kl * G.pol1 X (decide (m % 2 = 1)) j kl)) := by
  unfold q cell
  refine sum_congr rfl fun kl _ => ?_
  simp only [dRad_eq, dPol_eq, unit, if_true, show ¬ (j + 1 = j) by omega, show ¬ (j = j + 1) by omega, if_false]
  ring

theorem r_eq (X : GCoord) (m n j : Int) : G.r X m n j = ∑ kl ∈ Ico 0 G.s.nZnT,
    (G.W j kl * (G.rad1 X (decide (m % 2 = 1)) j kl ^ 2 + m ^ 2 * G.pol1 X (decide (m % 2 = 1)) j kl ^ 2) + G.Wn j kl * (n * G.s.nfp) ^ 2) := by
  unfold r cell
  refine sum_congr rfl fun kl _ => ?_
  simp only [dRad_eq, dPol_eq, unit, if_true, show ¬ (j = j + 1) by omega, if_false]
  ring

theorem cell_eq (X : GCoord) (m n : Int) (x y : Int → ℝ) (j : Int) :
    G.cell X m n x y j = G.p X m n j * x j * y j + G.q X m n j * (x j * y (j + 1) + x (j + 1) * y j) + G.r X m n j * x (j + 1) * y (j + 1) := by
  rw [p_eq, q_eq, r_eq]
  unfold cell
  simp only [sum_mul, ← sum_add_distrib]
  refine sum_congr rfl fun kl _ => ?_
  simp only [dRad_eq, dPol_eq]
  ring

/-- the form with a unit displacement -/
theorem form_unit (X : GCoord) (m n : Int) (x : Int → ℝ) {j : Int} (h0 : 0 ≤ j) (h1 : j < G.ns) :
    G.form X m n x (unit j) = (if j < G.ns - 1 then G.p X m n j * x j + G.q X m n j * x (j + 1) else 0)
      + (if 0 < j then G.q X m n (j - 1) * x (j - 1) + G.r X m n (j - 1) * x j else 0) := by
  unfold form
  have e : ∀ i ∈ Ico 0 (G.ns - 1), G.cell X m n x (unit j) i = (if i = j then G.p X m n j * x j + G.q X m n j * x (j + 1) else 0)
      + (if i = j - 1 then G.q X m n (j - 1) * x (j - 1) + G.r X m n (j - 1) * x j else 0) := by
    intro i _
    rw [cell_eq]
    unfold unit
    by_cases a : i = j
    · subst a
      simp only [if_true, show ¬ (i + 1 = i) by omega, show ¬ (i = i - 1) by omega, if_false]
      ring
    · by_cases b : i = j - 1
      · subst b
        simp only [sub_add_cancel, if_true, show ¬ (j - 1 = j) by omega, if_false]
        ring
      · simp only [a, b, show ¬ (i + 1 = j) by omega, if_false]
        ring
  rw [sum_congr rfl e, sum_add_distrib, sum_ite_eq', sum_ite_eq']
  simp only [mem_Ico]
  congr 1
  · simp only [h0, true_and]
  · simp only [show (0 ≤ j - 1 ∧ j - 1 < G.ns - 1) ↔ 0 < j by omega]

/-- what is summed up in `ax`, `bx`, `cx` -/
noncomputable def term (X : GCoord) (j kl : Int) : Acc → ℝ
  | .ax0 => G.W j kl * G.rad1 X false j kl ^ 2
  | .ax1 => G.W j kl * ((X.xu12 j kl / G.deltaS + 0.25 * (X.xuE (j + 1) kl / G.sqrtSH j + X.xuO (j + 1) kl) / G.sqrtSH j)
      * (-(X.xu12 j kl / G.deltaS) + 0.25 * (X.xuE j kl / G.sqrtSH j + X.xuO j kl) / G.sqrtSH j))
  | .ax2 => G.W j kl * (X.xu12 j kl / G.deltaS + 0.25 * (X.xuE (j + 1) kl / G.sqrtSH j + X.xuO (j + 1) kl) / G.sqrtSH j) ^ 2
  | .ax3 => G.W j kl * (-(X.xu12 j kl / G.deltaS) + 0.25 * (X.xuE j kl / G.sqrtSH j + X.xuO j kl) / G.sqrtSH j) ^ 2
  | .bx0 => G.W j kl * (G.pol1 X false j kl * G.pol0 X false j kl)
  | .bx1 => G.W j kl * G.pol1 X false j kl ^ 2
  | .bx2 => G.W j kl * G.pol0 X false j kl ^ 2
  | .cx => G.Wn j kl

end Glob

variable {c : PCtx} {G : Glob}

theorem point_apply (h : Holds c G) {x : Coord} {X : GCoord} (hx : HoldsX c G x X) (hH : c.r.nsMinH = c.r.nsMinF1) (hM : c.r.nsMaxH = c.r.nsMaxF1 - 1)
    {jH kl : Int} (j0 : c.r.nsMinH ≤ jH) (j1 : jH < c.r.nsMaxH) (k0 : 0 ≤ kl) (k1 : kl < c.s.nZnT) (a : Acc → Int → ℝ) (q : Acc) (i : Int) :
    c.point x jH kl a q i = a q i + if i = jH - c.r.nsMinH then G.term X jH kl q else 0 := by
  rw [h.s] at k1
  obtain ⟨e1, e2, e3, e4, e5⟩ := h.half jH j0 j1 kl k0 k1
  obtain ⟨e6, e7, e8⟩ := h.rad jH j0 j1
  obtain ⟨x1, x2⟩ := hx.half jH j0 j1 kl k0 k1
  obtain ⟨x3, x4, x5⟩ := hx.full jH (by omega) (by omega) kl k0 k1
  obtain ⟨x6, x7, x8⟩ := hx.full (jH + 1) (by omega) (by omega) kl k0 k1
  unfold PCtx.point
  simp only [h.s, h.deltaS, e1, e2, e3, e4, e5, e6, x1, x2, x3, x4, x5, x6, x7, x8]
  cases q <;> simp only [addTo_apply, reduceCtorEq, false_and, true_and, if_false, add_zero] <;> congr 1 <;>
    refine if_congr Iff.rfl ?_ rfl <;> simp only [Glob.term, Glob.W, Glob.Wn, Glob.rad1, Glob.pol0, Glob.pol1, Bool.false_eq_true, if_false] <;> ring

theorem accumulate_eq (h : Holds c G) {x : Coord} {X : GCoord} (hx : HoldsX c G x X) (hH : c.r.nsMinH = c.r.nsMinF1) (hM : c.r.nsMaxH = c.r.nsMaxF1 - 1)
    {j : Int} (j0 : c.r.nsMinH ≤ j) (j1 : j < c.r.nsMaxH) (q : Acc) :
    c.accumulate x q (j - c.r.nsMinH) = ∑ kl ∈ Ico 0 G.s.nZnT, G.term X j kl q := by
  unfold PCtx.accumulate
  rw [forRange_addAll (g := fun jH q i => ∑ kl ∈ Ico 0 c.s.nZnT, if i = jH - c.r.nsMinH then G.term X jH kl q else 0)]
  · rw [zero_add, Finset.sum_eq_single j]
    · simp only [if_true, h.s]
    · intro i _ hne
      refine sum_eq_zero fun kl _ => if_neg (by omega)
    · intro hn
      exact absurd (mem_Ico.2 ⟨j0, j1⟩) hn
  · intro jH s q i a b
    rw [forRange_addAll (g := fun kl q i => if i = jH - c.r.nsMinH then G.term X jH kl q else 0)]
    intro kl s q i k0 k1
    exact point_apply h hx hH hM a b k0 k1 s q i

end Verif.Radial
