import Verif.Nestor.Elements
import Verif.Nestor.Subtracted
import Verif.Nestor.PropsA

/-! # From the elements of the arrays to the integrals of the subtracted kernels -/
namespace Verif.Nestor
open Verif Fourier Finset MeasureTheory

theorem tPoly_sum {A d B : ℝ} (h : Pos A d B) (L : ℕ) (w : ℕ → ℝ) :
    ∑ l ∈ range L, w l * tInt A d B l = tPoly A d B fun t => ∑ l ∈ range L, w l * t ^ l := by
  unfold tPoly tInt
  rw [← integral_Ioc_eq_integral_Ioo, ← intervalIntegral.integral_of_le (by norm_num)]
  simp only [Finset.sum_div, mul_div_assoc]
  rw [intervalIntegral.integral_finset_sum]
  · simp only [intervalIntegral.integral_const_mul]
  · intro l _
    exact (continuous_const.mul (h.continuous_t l)).intervalIntegrable _ _

theorem sPoly_sum {A d B : ℝ} (h : Pos A d B) (A' d' B' : ℝ) (L : ℕ) (w : ℕ → ℝ) :
    ∑ l ∈ range L, w l * sInt A d B A' d' B' l = sPoly A d B A' d' B' fun t => ∑ l ∈ range L, w l * t ^ l := by
  unfold sPoly sInt
  rw [← integral_Ioc_eq_integral_Ioo, ← intervalIntegral.integral_of_le (by norm_num)]
  have e : ∀ t : ℝ, (∑ l ∈ range L, w l * t ^ l) * quad A' d' B' t / √(quad A d B t) ^ 3
      = ∑ l ∈ range L, w l * (t ^ l * quad A' d' B' t / √(quad A d B t) ^ 3) := by
    intro t
    rw [Finset.sum_mul, Finset.sum_div]
    exact sum_congr rfl fun l _ => by ring
  simp only [e]
  rw [intervalIntegral.integral_finset_sum]
  · simp only [intervalIntegral.integral_const_mul]
  · intro l _
    exact (continuous_const.mul (h.continuous_s A' d' B' l)).intervalIntegrable _ _

theorem sum_Ico_range (L : ℕ) (g : Int → ℝ) : ∑ l ∈ Ico (0 : Int) L, g l = ∑ l ∈ range L, g l := by
  induction L with
  | zero => simp
  | succ L ih =>
    have : ((L + 1 : ℕ) : Int) = (L : Int) + 1 := by push_cast; ring
    rw [this, sum_Ico_int_succ (by omega), ih, sum_range_succ]

theorem sel_sum (n m : Int) (s : Finset Int) (w p q : Int → ℝ) :
    ∑ l ∈ s, w l * sel n m (p l) (q l) = sel n m (∑ l ∈ s, w l * p l) (∑ l ∈ s, w l * q l) := by
  unfold sel
  by_cases h1 : m = 0 ∨ n = 0
  · simp only [if_pos h1]
    by_cases h2 : n < 0
    · simp [if_pos h2]
    · simp only [if_neg h2, mul_add, sum_add_distrib]
  · simp only [if_neg h1]
    by_cases h2 : 0 < n
    · simp only [if_pos h2]
    · simp only [if_neg h2]

/-- the metric with the sign of its mixed coefficients reversed -/
def Forms.mirror (f : Forms) : Forms := { f with b2 := -f.b2, B2 := -f.B2 }

theorem Forms.Regular.mirror {f : Forms} (h : f.Regular) : f.mirror.Regular := ⟨h.a, by
  show (-f.b2) ^ 2 < _
  rw [neg_sq]; exact h.det⟩

/-- the coefficients of the mode -/
noncomputable def tPlus (f : Forms) (n m : Int) : ℝ := tPoly (f.a + f.b2 + f.c) (f.c - f.a) (f.a - f.b2 + f.c) (pmns m.toNat n.natAbs)
noncomputable def tMinus (f : Forms) (n m : Int) : ℝ := tPoly (f.a - f.b2 + f.c) (f.c - f.a) (f.a + f.b2 + f.c) (pmns m.toNat n.natAbs)
noncomputable def sPlus (f : Forms) (n m : Int) : ℝ :=
  sPoly (f.a + f.b2 + f.c) (f.c - f.a) (f.a - f.b2 + f.c) (f.A + f.B2 + f.C) (f.C - f.A) (f.A - f.B2 + f.C) (pmns m.toNat n.natAbs)
noncomputable def sMinus (f : Forms) (n m : Int) : ℝ :=
  sPoly (f.a - f.b2 + f.c) (f.c - f.a) (f.a + f.b2 + f.c) (f.A - f.B2 + f.C) (f.C - f.A) (f.A + f.B2 + f.C) (pmns m.toNat n.natAbs)

theorem tPlus_mirror (f : Forms) (n m : Int) : tPlus f.mirror n m = tMinus f n m := by
  unfold tPlus tMinus Forms.mirror; simp only []; rw [← sub_eq_add_neg, sub_neg_eq_add]
theorem tMinus_mirror (f : Forms) (n m : Int) : tMinus f.mirror n m = tPlus f n m := by
  unfold tPlus tMinus Forms.mirror; simp only []; rw [← sub_eq_add_neg, sub_neg_eq_add]
theorem sPlus_mirror (f : Forms) (n m : Int) : sPlus f.mirror n m = sMinus f n m := by
  unfold sPlus sMinus Forms.mirror; simp only []; rw [← sub_eq_add_neg, sub_neg_eq_add, ← sub_eq_add_neg, sub_neg_eq_add]
theorem sMinus_mirror (f : Forms) (n m : Int) : sMinus f.mirror n m = sPlus f n m := by
  unfold sPlus sMinus Forms.mirror; simp only []; rw [← sub_eq_add_neg, sub_neg_eq_add, ← sub_eq_add_neg, sub_neg_eq_add]

/-- integral over the angles of a field period around a point -/
noncomputable def angleInt (k : ℝ → ℝ → ℝ) : ℝ :=
  ∫ u in Set.Ioo (-Real.pi) Real.pi, ∫ v in Set.Ioo (-Real.pi) Real.pi, k u v

/-- the right coefficient of a mode, for `n` of either sign -/
theorem angle_first {f : Forms} (h : f.Regular) (φ : ℝ) (n m : Int) (hm : 0 ≤ m) (hnm : 0 ≤ n ∨ m ≠ 0) :
    angleInt (fun u v => Real.cos (φ + (m * u - n * v)) * ga1 f u v) = 2 * Real.pi * Real.cos φ * sel n m (tMinus f n m) (tPlus f n m) := by
  unfold angleInt tMinus tPlus sel
  obtain ⟨m, rfl⟩ := Int.eq_ofNat_of_zero_le hm
  rcases le_or_gt 0 n with hn | hn
  · obtain ⟨n, rfl⟩ := Int.eq_ofNat_of_zero_le hn
    have := first_minus h φ m n
    push_cast
    rw [this]
    simp only [Int.toNat_natCast, Int.natAbs_natCast, Nat.cast_eq_zero, if_neg (by omega : ¬ (n : Int) < 0)]
    by_cases h0 : m = 0 ∨ n = 0
    · simp only [if_pos h0]
    · simp only [if_neg h0, if_pos (by omega : 0 < (n : Int)), add_zero]
  · obtain ⟨k, rfl⟩ : ∃ k : ℕ, n = -(k : Int) := ⟨n.natAbs, by omega⟩
    have := first_plus h φ m k
    push_cast
    simp only [neg_mul, sub_neg_eq_add]
    rw [this]
    simp only [Int.toNat_natCast, Int.natAbs_neg, Int.natAbs_natCast]
    rw [if_neg (by omega), if_neg (by omega), if_neg (by omega), zero_add]

theorem angle_second {f : Forms} (h : f.Regular) (φ : ℝ) (n m : Int) (hm : 0 ≤ m) (hnm : 0 ≤ n ∨ m ≠ 0) :
    angleInt (fun u v => Real.cos (φ + (m * u - n * v)) * (ga1 f u v * ga2 f u v))
      = 2 * Real.pi * Real.cos φ * sel n m (sMinus f n m) (sPlus f n m) := by
  unfold angleInt sMinus sPlus sel
  obtain ⟨m, rfl⟩ := Int.eq_ofNat_of_zero_le hm
  rcases le_or_gt 0 n with hn | hn
  · obtain ⟨n, rfl⟩ := Int.eq_ofNat_of_zero_le hn
    have := second_minus h φ m n
    push_cast
    rw [this]
    simp only [Int.toNat_natCast, Int.natAbs_natCast, Nat.cast_eq_zero, if_neg (by omega : ¬ (n : Int) < 0)]
    by_cases h0 : m = 0 ∨ n = 0
    · simp only [if_pos h0]
    · simp only [if_neg h0, if_pos (by omega : 0 < (n : Int)), add_zero]
  · obtain ⟨k, rfl⟩ : ∃ k : ℕ, n = -(k : Int) := ⟨n.natAbs, by omega⟩
    have := second_plus h φ m k
    push_cast
    simp only [neg_mul, sub_neg_eq_add]
    rw [this]
    simp only [Int.toNat_natCast, Int.natAbs_neg, Int.natAbs_natCast]
    rw [if_neg (by omega), if_neg (by omega), if_neg (by omega), zero_add]

/-- the metric whose kernel the code integrates -/
def Forms.used (f : Forms) (n m : Int) : Forms := if m = 0 ∨ n = 0 then f else f.mirror

theorem Forms.Regular.used {f : Forms} (h : f.Regular) (n m : Int) : (f.used n m).Regular := by
  unfold Forms.used; split
  · exact h
  · exact h.mirror

theorem used_first (f : Forms) (n m : Int) :
    sel n m (tMinus (f.used n m) n m) (tPlus (f.used n m) n m) = sel n m (tPlus f n m) (tMinus f n m) := by
  unfold Forms.used sel
  by_cases h : m = 0 ∨ n = 0
  · simp only [if_pos h, add_comm]
  · simp only [if_neg h, tMinus_mirror, tPlus_mirror]

theorem used_second (f : Forms) (n m : Int) :
    sel n m (sMinus (f.used n m) n m) (sPlus (f.used n m) n m) = sel n m (sPlus f n m) (sMinus f n m) := by
  unfold Forms.used sel
  by_cases h : m = 0 ∨ n = 0
  · simp only [if_pos h, add_comm]
  · simp only [if_neg h, sMinus_mirror, sPlus_mirror]

namespace Ctx
variable {c : Ctx}

/-- the constants of `computeCoefficients` and, at every point of the thread, what `prepareUpdate` computes from the two
    fundamental forms, in the forward branch -/
structure Prepared (c : Ctx) (f : Int → Forms) : Prop where
  cmns : ∃ old, c.cmns = computeCmns c.nf c.mf (computeCmn c.nf c.mf) old
  reg : ∀ i, 0 ≤ i → i < c.numLocal → (f i).Regular
  pt : ∀ i, 0 ≤ i → i < c.numLocal → ∃ old, c.pt i = preparePoint c.nf c.mf c.fullUpdate (f i) old
  fwdp : ∀ i, 0 ≤ i → i < c.numLocal → ¬ useBackward (c.mf + c.nf) ((f i).a + (f i).b2 + (f i).c) ((f i).a - (f i).b2 + (f i).c)
  fwdm : ∀ i, 0 ≤ i → i < c.numLocal → ¬ useBackward (c.mf + c.nf) ((f i).a - (f i).b2 + (f i).c) ((f i).a + (f i).b2 + (f i).c)

variable {f : Int → Forms}

theorem T_at (g : c.Good) (p : c.Prepared f) {i : Int} (h0 : 0 ≤ i) (h1 : i < c.numLocal) (l : ℕ) (hl : (l : Int) ≤ c.mf + c.nf) :
    (c.pt i).Tlp l = tInt ((f i).a + (f i).b2 + (f i).c) ((f i).c - (f i).a) ((f i).a - (f i).b2 + (f i).c) l ∧
    (c.pt i).Tlm l = tInt ((f i).a - (f i).b2 + (f i).c) ((f i).c - (f i).a) ((f i).a + (f i).b2 + (f i).c) l := by
  obtain ⟨old, e⟩ := p.pt i h0 h1
  have := C72_forward c.nf c.mf g.nf0 g.mf0 (f i) (p.reg i h0 h1) c.fullUpdate old l hl
  rw [e]
  exact ⟨this.1 (p.fwdp i h0 h1), this.2 (p.fwdm i h0 h1)⟩

theorem slp_zero (k : Consts) (sgn T T1 T1' : ℝ) : slp k 0 sgn T T1 = slp k 0 sgn T T1' ∧ slm k 0 sgn T T1 = slm k 0 sgn T T1' := by
  unfold slp slm; simp

theorem S_at (g : c.Good) (p : c.Prepared f) (hf : c.fullUpdate = true) {i : Int} (h0 : 0 ≤ i) (h1 : i < c.numLocal) (l : ℕ)
    (hl : (l : Int) ≤ c.mf + c.nf) :
    c.Sp l i = sInt ((f i).a + (f i).b2 + (f i).c) ((f i).c - (f i).a) ((f i).a - (f i).b2 + (f i).c)
        ((f i).A + (f i).B2 + (f i).C) ((f i).C - (f i).A) ((f i).A - (f i).B2 + (f i).C) l ∧
    c.Sm l i = sInt ((f i).a - (f i).b2 + (f i).c) ((f i).c - (f i).a) ((f i).a + (f i).b2 + (f i).c)
        ((f i).A - (f i).B2 + (f i).C) ((f i).C - (f i).A) ((f i).A + (f i).B2 + (f i).C) l := by
  obtain ⟨t1, t2⟩ := T_at g p h0 h1 l hl
  obtain ⟨old, e⟩ := p.pt i h0 h1
  have hk : (c.pt i).k = constsOf (f i) true old.k := by rw [e, hf]; rfl
  obtain ⟨s1, s2⟩ := C72_second (f i) (p.reg i h0 h1) old.k l
  unfold Sp Sm prev
  rw [t1, t2, hk, ← s1, ← s2, Int.toNat_natCast]
  rcases Nat.eq_zero_or_pos l with rfl | hp
  · push_cast
    exact ⟨(slp_zero _ _ _ _ _).1, (slp_zero _ _ _ _ _).2⟩
  · rw [if_neg (by omega)]
    obtain ⟨u1, u2⟩ := T_at g p h0 h1 (l - 1) (by omega)
    have el : (l : Int) - 1 = ((l - 1 : ℕ) : Int) := by omega
    rw [if_neg (by omega), el, u1, u2]
    exact ⟨rfl, rfl⟩

theorem poly_at (g : c.Good) (p : c.Prepared f) (n m : Int) (hn : |n| ≤ c.nf) (hm0 : 0 ≤ m) (hm1 : m ≤ c.mf) (t : ℝ) :
    ∑ l ∈ range (c.mf.toNat + c.nf.toNat + 1), c.cmns (lnm c.nf c.mf l |n| m) * t ^ l = pmns m.toNat n.natAbs t := by
  obtain ⟨old, e⟩ := p.cmns
  have h1 := g.nf0
  have h2 := g.mf0
  rw [Int.abs_eq_natAbs] at hn
  have := cmns_poly c.nf.toNat c.mf.toNat old n.natAbs m.toNat (by omega) (by omega) t
  rw [← this, e, Int.toNat_of_nonneg h1, Int.toNat_of_nonneg h2, Int.abs_eq_natAbs, Int.toNat_of_nonneg hm0]

theorem sumT (g : c.Good) (p : c.Prepared f) (n m : Int) (hn : |n| ≤ c.nf) (hm0 : 0 ≤ m) (hm1 : m ≤ c.mf) {i : Int} (h0 : 0 ≤ i)
    (h1 : i < c.numLocal) :
    ∑ fl ∈ Ico 0 (1 + c.nf + c.mf), c.cmns (lnm c.nf c.mf fl |n| m) * sel n m ((c.pt i).Tlp fl) ((c.pt i).Tlm fl)
      = sel n m (tPlus (f i) n m) (tMinus (f i) n m) := by
  have g1 := g.nf0
  have g2 := g.mf0
  have hL : (1 + c.nf + c.mf) = ((c.mf.toNat + c.nf.toNat + 1 : ℕ) : Int) := by omega
  rw [sel_sum, hL, sum_Ico_range, sum_Ico_range]
  unfold tPlus tMinus
  congr 1
  · rw [← funext (poly_at g p n m hn hm0 hm1), ← tPoly_sum (p.reg i h0 h1).plus]
    refine sum_congr rfl fun l hl => ?_
    rw [mem_range] at hl
    rw [(T_at g p h0 h1 l (by omega)).1]
  · rw [← funext (poly_at g p n m hn hm0 hm1), ← tPoly_sum (p.reg i h0 h1).minus]
    refine sum_congr rfl fun l hl => ?_
    rw [mem_range] at hl
    rw [(T_at g p h0 h1 l (by omega)).2]

theorem sumS (g : c.Good) (p : c.Prepared f) (hf : c.fullUpdate = true) (n m : Int) (hn : |n| ≤ c.nf) (hm0 : 0 ≤ m) (hm1 : m ≤ c.mf) {i : Int}
    (h0 : 0 ≤ i) (h1 : i < c.numLocal) :
    ∑ fl ∈ Ico 0 (1 + c.nf + c.mf), c.cmns (lnm c.nf c.mf fl |n| m) * sel n m (c.Sp fl i) (c.Sm fl i)
      = sel n m (sPlus (f i) n m) (sMinus (f i) n m) := by
  have g1 := g.nf0
  have g2 := g.mf0
  have hL : (1 + c.nf + c.mf) = ((c.mf.toNat + c.nf.toNat + 1 : ℕ) : Int) := by omega
  rw [sel_sum, hL, sum_Ico_range, sum_Ico_range]
  unfold sPlus sMinus
  congr 1
  · rw [← funext (poly_at g p n m hn hm0 hm1), ← sPoly_sum (p.reg i h0 h1).plus]
    refine sum_congr rfl fun l hl => ?_
    rw [mem_range] at hl
    rw [(S_at g p hf h0 h1 l (by omega)).1]
  · rw [← funext (poly_at g p n m hn hm0 hm1), ← sPoly_sum (p.reg i h0 h1).minus]
    refine sum_congr rfl fun l hl => ?_
    rw [mem_range] at hl
    rw [(S_at g p hf h0 h1 l (by omega)).2]

end Ctx

/-- strict order of the two integrals for the mode `(1, 1)` -/
theorem tMinus_lt {f : Forms} (h : f.Regular) (hb : 0 < f.b2) : tMinus f 1 1 < tPlus f 1 1 := by
  have hp : ∀ t : ℝ, pmns 1 1 t = 1 - t ^ 2 := by
    intro t
    show (pmn (0 + 1) (0 + 1) t + pmn (0 + 1) 0 t + pmn 0 (0 + 1) t + pmn 0 0 t) / 2 = _
    rw [pmn_succ, pmn_zero_right, pmn_zero_left, pmn_zero_right]; ring
  unfold tMinus tPlus tPoly
  show ∫ t in Set.Ioo (-1 : ℝ) 1, pmns 1 1 t / _ < ∫ t in Set.Ioo (-1 : ℝ) 1, pmns 1 1 t / _
  simp only [hp]
  rw [← integral_Ioc_eq_integral_Ioo, ← intervalIntegral.integral_of_le (by norm_num), ← integral_Ioc_eq_integral_Ioo,
    ← intervalIntegral.integral_of_le (by norm_num)]
  have c1 : Continuous fun t : ℝ => (1 - t ^ 2) / √(quad (f.a - f.b2 + f.c) (f.c - f.a) (f.a + f.b2 + f.c) t) :=
    Continuous.div (by fun_prop) (Pos.continuous_quad.sqrt) fun t => (h.minus.sqrt_pos t).ne'
  have c2 : Continuous fun t : ℝ => (1 - t ^ 2) / √(quad (f.a + f.b2 + f.c) (f.c - f.a) (f.a - f.b2 + f.c) t) :=
    Continuous.div (by fun_prop) (Pos.continuous_quad.sqrt) fun t => (h.plus.sqrt_pos t).ne'
  have hq : ∀ t : ℝ, quad (f.a - f.b2 + f.c) (f.c - f.a) (f.a + f.b2 + f.c) t
      = quad (f.a + f.b2 + f.c) (f.c - f.a) (f.a - f.b2 + f.c) t + 2 * f.b2 * (1 - t ^ 2) := by intro t; unfold quad; ring
  refine intervalIntegral.integral_lt_integral_of_continuousOn_of_le_of_exists_lt (by norm_num) c1.continuousOn c2.continuousOn
    (fun t ht => ?_) ⟨0, by constructor <;> norm_num, ?_⟩
  · have ht2 : 0 ≤ 1 - t ^ 2 := by nlinarith [ht.1, ht.2]
    refine div_le_div_of_nonneg_left ht2 (h.plus.sqrt_pos t) (Real.sqrt_le_sqrt ?_)
    rw [hq]
    nlinarith [mul_nonneg hb.le ht2]
  · refine div_lt_div_of_pos_left (by norm_num) (h.plus.sqrt_pos 0) (Real.sqrt_lt_sqrt (h.plus.quad_pos 0).le ?_)
    rw [hq]
    linarith

end Verif.Nestor
