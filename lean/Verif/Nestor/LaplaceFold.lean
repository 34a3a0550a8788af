import Verif.Nestor.Laplace
import Verif.Nestor.Elements
import Verif.Nestor.SurfSum
import Verif.Sizes.Props

/-! # Sums over half of the grid that are sums over the whole grid -/
namespace Verif.Nestor
open Verif Fourier Finset

/-- the basis function of a kind -/
noncomputable def Par.fn : Par → ℝ → ℝ
  | .sin => Real.sin
  | .cos => Real.cos

/-- sign of the basis function under reflection -/
def Par.sgn : Par → ℝ
  | .sin => -1
  | .cos => 1

theorem Par.fn_neg (p : Par) (x : ℝ) : p.fn (-x) = p.sgn * p.fn x := by
  cases p <;> simp [Par.fn, Par.sgn]

theorem Par.sgn_sq (p : Par) : p.sgn * p.sgn = 1 := by
  cases p <;> simp [Par.sgn]

theorem Par.fn_period (p : Par) (x : ℝ) (n : Int) : p.fn (x + n * (2 * Real.pi)) = p.fn x := by
  cases p
  · exact Real.sin_add_int_mul_two_pi x n
  · exact Real.cos_add_int_mul_two_pi x n

namespace LCtx
variable (c : LCtx)

structure Good : Prop where
  grid : GoodGrid c.s
  nf0 : 0 ≤ c.nf
  nf1 : c.nf ≤ c.s.nnyq2
  mf0 : 0 ≤ c.mf
  mf1 : c.mf ≤ c.s.mnyq2
  lo : 0 ≤ c.ztMin
  le : c.ztMin ≤ c.ztMax
  hi : c.ztMax ≤ c.s.nThetaEff * c.s.nZeta

/-- `m u - n v` at a grid point -/
noncomputable def phase (n m l k : Int) : ℝ := m * thetaGrid c.s l - n * zetaGrid c.s k

/-- weight of the rows of half of the grid -/
noncomputable def rw (l : Int) : ℝ :=
  if l = 0 ∨ l = c.s.nThetaReduced - 1 then (1 / ((c.s.nZeta * (c.s.nThetaReduced - 1) : Int) : ℝ)) / 2
  else 1 / ((c.s.nZeta * (c.s.nThetaReduced - 1) : Int) : ℝ)

/-- mean over the whole grid -/
noncomputable def gridMean (H : Int → Int → ℝ) : ℝ :=
  (∑ l ∈ Ico 0 c.s.nThetaEven, ∑ k ∈ Ico 0 c.s.nZeta, H l k) / ((c.s.nZeta * c.s.nThetaEven : Int) : ℝ)

variable {c}

theorem cosnv_at (g : c.Good) {n k : Int} (hn0 : 0 ≤ n) (hn1 : n ≤ c.nf) (hk0 : 0 ≤ k) (hk1 : k < c.s.nZeta) :
    c.cosnvS n k = Real.cos (n * zetaGrid c.s k) ∧ c.sinnvS n k = Real.sin (n * zetaGrid c.s k) := by
  have gm := g.nf1
  have := Ctx.scale_ne n
  unfold cosnvS sinnvS
  rw [tor_eq _ (Or.inr rfl) c.s _ n k hn0 (by omega) hk0 hk1, fillScale_eq _ n hn0 (by omega)]
  unfold torEntry zetaGrid
  constructor <;> field_simp

theorem sin_ends (g : c.Good) {l : Int} (hl : l = 0 ∨ l = c.s.nThetaReduced - 1) (m : Int) : Real.sin (m * thetaGrid c.s l) = 0 := by
  have ge := g.grid.even
  have := g.grid.nyqP
  have := g.grid.mpol
  rcases hl with rfl | rfl
  · simp [thetaGrid]
  · have : m * thetaGrid c.s (c.s.nThetaReduced - 1) = m * Real.pi := by
      unfold thetaGrid
      rw [ge]
      have h0 : ((c.s.nThetaReduced - 1 : Int) : ℝ) ≠ 0 := by
        have : c.s.nThetaReduced - 1 ≠ 0 := by omega
        exact_mod_cast this
      push_cast at h0 ⊢
      field_simp
    rw [this]
    exact Real.sin_int_mul_pi m

theorem mui_at (g : c.Good) {m l : Int} (hm0 : 0 ≤ m) (hm1 : m ≤ c.mf) (hl0 : 0 ≤ l) (hl1 : l < c.s.nThetaReduced) :
    c.cosmuiS l m = Real.cos (m * thetaGrid c.s l) * c.rw l ∧ c.sinmuiS l m = Real.sin (m * thetaGrid c.s l) * c.rw l := by
  have gm := g.mf1
  have := Ctx.scale_ne m
  have hs := sin_ends g (l := l) (m := m)
  unfold cosmuiS sinmuiS rw
  rw [pol_eq _ (Or.inr rfl) c.s m l hm0 (by omega) hl0 hl1, fillScale_eq _ m hm0 (by omega)]
  unfold polEntry
  unfold thetaGrid at *
  simp only []
  split
  · rename_i h
    rw [hs h]
    constructor
    · field_simp
    · simp
  · constructor <;> field_simp

theorem revL_range (g : c.Good) {l : Int} (h0 : 0 ≤ l) (h1 : l < c.s.nThetaEven) : 0 ≤ c.revL l ∧ c.revL l < c.s.nThetaEven :=
  SCtx.rev_col_range h0 h1

theorem revL_revL {l : Int} (h0 : 0 ≤ l) (h1 : l < c.s.nThetaEven) : c.revL (c.revL l) = l := SCtx.rev_rev h0 h1
theorem revK_revK {k : Int} (h0 : 0 ≤ k) (h1 : k < c.s.nZeta) : c.revK (c.revK k) = k := SCtx.rev_rev h0 h1

theorem grid_rev (N : Int) (hN : 0 < N) {k : Int} (h0 : 0 ≤ k) (h1 : k < N) :
    2 * Real.pi * ((N - k).tmod N : Int) / N = ((if k = 0 then 0 else 1 : Int) : ℝ) * (2 * Real.pi) - 2 * Real.pi * k / N := by
  have hE : (N : ℝ) ≠ 0 := by exact_mod_cast hN.ne'
  rw [SCtx.rev_col h0 h1]
  split
  · rename_i h; subst h; simp
  · push_cast; field_simp

theorem fn_rev (g : c.Good) (p : Par) (n m : Int) {l k : Int} (hl0 : 0 ≤ l) (hl1 : l < c.s.nThetaEven) (hk0 : 0 ≤ k) (hk1 : k < c.s.nZeta) :
    p.fn (c.phase n m (c.revL l) (c.revK k)) = p.sgn * p.fn (c.phase n m l k) := by
  have e : c.phase n m (c.revL l) (c.revK k) = -c.phase n m l k
      + ((m * (if l = 0 then 0 else 1) - n * (if k = 0 then 0 else 1) : Int) : ℝ) * (2 * Real.pi) := by
    unfold phase thetaGrid zetaGrid revL revK
    rw [grid_rev _ (by omega) hl0 hl1, grid_rev _ (by omega) hk0 hk1]
    push_cast
    ring
  rw [e, Par.fn_period, Par.fn_neg]

/-- reflection permutes the grid -/
theorem sum_rev (N : Int) (H : Int → ℝ) : ∑ k ∈ Ico 0 N, H ((N - k).tmod N) = ∑ k ∈ Ico 0 N, H k := by
  refine Finset.sum_nbij' (fun k => (N - k).tmod N) (fun k => (N - k).tmod N) ?_ ?_ ?_ ?_ ?_
  · intro k hk; simp only [coe_Ico, Set.mem_Ico, mem_Ico] at hk ⊢; exact SCtx.rev_col_range hk.1 hk.2
  · intro k hk; simp only [coe_Ico, Set.mem_Ico, mem_Ico] at hk ⊢; exact SCtx.rev_col_range hk.1 hk.2
  · intro k hk; simp only [coe_Ico, Set.mem_Ico, mem_Ico] at hk; exact SCtx.rev_rev hk.1 hk.2
  · intro k hk; simp only [coe_Ico, Set.mem_Ico, mem_Ico] at hk; exact SCtx.rev_rev hk.1 hk.2
  · intro k _; rfl

theorem sum_rev2 (H : Int → Int → ℝ) :
    ∑ l ∈ Ico 0 c.s.nThetaEven, ∑ k ∈ Ico 0 c.s.nZeta, H (c.revL l) (c.revK k) = ∑ l ∈ Ico 0 c.s.nThetaEven, ∑ k ∈ Ico 0 c.s.nZeta, H l k := by
  rw [← sum_rev c.s.nThetaEven fun l => ∑ k ∈ Ico 0 c.s.nZeta, H l k]
  exact sum_congr rfl fun l _ => sum_rev c.s.nZeta fun k => H (c.revL l) k

/-- a sum over half of the grid with the weights `rw` of rows that are symmetric -/
theorem half_rows (g : c.Good) (G : Int → ℝ) (hG : ∀ l, 0 ≤ l → l < c.s.nThetaEven → G (c.revL l) = G l) :
    ∑ l ∈ Ico 0 c.s.nThetaReduced, G l * c.rw l = (∑ l ∈ Ico 0 c.s.nThetaEven, G l) / ((c.s.nZeta * c.s.nThetaEven : Int) : ℝ) := by
  have ge := g.grid.even
  have gz := g.grid.nz
  have := g.grid.nyqP
  have := g.grid.mpol
  have h1 := Sizes.reduced_weighted (K := ℝ) (c.s.nThetaReduced - 1) c.s.nZeta (by omega) gz G
  rw [sub_add_cancel] at h1
  unfold rw
  rw [h1, ge]
  congr 1
  set M := c.s.nThetaReduced - 1 with hM
  rw [sum_Ico_split (show (0:Int) ≤ M by omega) (show M ≤ 2 * M by omega)]
  rw [sum_Ico_int_first (show (0:Int) < M by omega), sum_Ico_int_first (show M < 2 * M by omega)]
  have : ∑ l ∈ Finset.Ico (M + 1) (2 * M), G l = ∑ l ∈ Finset.Ico 1 M, G l := by
    refine Finset.sum_nbij' (fun j => 2 * M - j) (fun j => 2 * M - j) ?_ ?_ ?_ ?_ ?_
    · intro j h; rw [Finset.mem_Ico] at *; omega
    · intro j h; rw [Finset.mem_Ico] at *; omega
    · intro j _; ring
    · intro j _; ring
    · intro j h
      rw [Finset.mem_Ico] at h
      rw [← hG j (by omega) (by omega)]
      unfold revL
      rw [SCtx.rev_col (by omega) (by omega), if_neg (by omega), ge]
  rw [this]; ring

/-- half of the grid with the folded function is the whole grid -/
theorem fold (g : c.Good) (p : Par) (n m : Int) (F : Int → Int → ℝ) :
    ∑ l ∈ Ico 0 c.s.nThetaReduced, (∑ k ∈ Ico 0 c.s.nZeta, (F l k + p.sgn * F (c.revL l) (c.revK k)) * 0.5 * p.fn (c.phase n m l k)) * c.rw l
      = c.gridMean fun l k => F l k * p.fn (c.phase n m l k) := by
  rw [half_rows g]
  · unfold gridMean
    congr 1
    have e : ∀ l k, (F l k + p.sgn * F (c.revL l) (c.revK k)) * 0.5 * p.fn (c.phase n m l k)
        = 0.5 * (F l k * p.fn (c.phase n m l k)) + 0.5 * (F (c.revL l) (c.revK k) * (p.sgn * p.fn (c.phase n m l k))) := by intros; ring
    simp only [e, sum_add_distrib, ← mul_sum]
    have e2 : ∑ l ∈ Ico 0 c.s.nThetaEven, ∑ k ∈ Ico 0 c.s.nZeta, F (c.revL l) (c.revK k) * (p.sgn * p.fn (c.phase n m l k))
        = ∑ l ∈ Ico 0 c.s.nThetaEven, ∑ k ∈ Ico 0 c.s.nZeta, F l k * p.fn (c.phase n m l k) := by
      rw [← sum_rev2 fun l k => F l k * p.fn (c.phase n m l k)]
      refine sum_congr rfl fun l hl => sum_congr rfl fun k hk => ?_
      rw [mem_Ico] at hl hk
      rw [fn_rev g p n m hl.1 hl.2 hk.1 hk.2]
    rw [e2]
    ring
  · intro l h0 h1
    rw [← sum_rev c.s.nZeta]
    refine sum_congr rfl fun k hk => ?_
    rw [mem_Ico] at hk
    show (F (c.revL l) (c.revK k) + p.sgn * F (c.revL (c.revL l)) (c.revK (c.revK k))) * 0.5 * p.fn (c.phase n m (c.revL l) (c.revK k)) = _
    rw [fn_rev g p n m h0 h1 hk.1 hk.2, revL_revL h0 h1, revK_revK hk.1 hk.2]
    have := p.sgn_sq
    linear_combination 0.5 * F l k * p.fn (c.phase n m l k) * this

/-- the products with the tables are the integral against the basis function -/
theorem project (g : c.Good) (K : Int → Int → ℝ) (n m : Int) (hm0 : 0 ≤ m) (hm1 : m ≤ c.mf) :
    (∑ l ∈ Ico 0 c.s.nThetaReduced, c.sinmuiS l m * (∑ k ∈ Ico 0 c.s.nZeta, Real.cos (n * zetaGrid c.s k) * K l k)
      - ∑ l ∈ Ico 0 c.s.nThetaReduced, c.cosmuiS l m * (∑ k ∈ Ico 0 c.s.nZeta, Real.sin (n * zetaGrid c.s k) * K l k)
        = ∑ l ∈ Ico 0 c.s.nThetaReduced, (∑ k ∈ Ico 0 c.s.nZeta, K l k * Par.sin.fn (c.phase n m l k)) * c.rw l) ∧
    (∑ l ∈ Ico 0 c.s.nThetaReduced, c.cosmuiS l m * (∑ k ∈ Ico 0 c.s.nZeta, Real.cos (n * zetaGrid c.s k) * K l k)
      + ∑ l ∈ Ico 0 c.s.nThetaReduced, c.sinmuiS l m * (∑ k ∈ Ico 0 c.s.nZeta, Real.sin (n * zetaGrid c.s k) * K l k)
        = ∑ l ∈ Ico 0 c.s.nThetaReduced, (∑ k ∈ Ico 0 c.s.nZeta, K l k * Par.cos.fn (c.phase n m l k)) * c.rw l) := by
  constructor
  · rw [← sum_sub_distrib]
    refine sum_congr rfl fun l hl => ?_
    rw [mem_Ico] at hl
    rw [(mui_at g hm0 hm1 hl.1 hl.2).1, (mui_at g hm0 hm1 hl.1 hl.2).2, mul_sum, mul_sum, ← sum_sub_distrib, sum_mul]
    refine sum_congr rfl fun k _ => ?_
    simp only [phase, Par.fn]
    rw [Real.sin_sub]; ring
  · rw [← sum_add_distrib]
    refine sum_congr rfl fun l hl => ?_
    rw [mem_Ico] at hl
    rw [(mui_at g hm0 hm1 hl.1 hl.2).1, (mui_at g hm0 hm1 hl.1 hl.2).2, mul_sum, mul_sum, ← sum_add_distrib, sum_mul]
    refine sum_congr rfl fun k _ => ?_
    simp only [phase, Par.fn]
    rw [Real.cos_sub]; ring

theorem part_eq (p : Par) (G : Int → ℝ) (off l k : Int) :
    c.part p G off l k = (G (off + (l * c.s.nZeta + k)) + p.sgn * G (off + (c.revL l * c.s.nZeta + c.revK k))) * 0.5 := by
  cases p
  · unfold part Par.sgn; ring
  · unfold part Par.sgn; ring

/-- toroidal transforms for either sign of `n` -/
theorem g1_at (g : c.Good) (p : Par) (G : Int → ℝ) (off l : Int) {n : Int} (h0 : 0 ≤ n) (h1 : n ≤ c.nf) :
    c.g1 p G off l n = ∑ k ∈ Ico 0 c.s.nZeta, Real.cos (n * zetaGrid c.s k) * c.part p G off l k ∧
    c.g2 p G off l n = ∑ k ∈ Ico 0 c.s.nZeta, Real.sin (n * zetaGrid c.s k) * c.part p G off l k := by
  unfold g1 g2
  constructor <;>
  · refine sum_congr rfl fun k hk => ?_
    rw [mem_Ico] at hk
    simp only [(cosnv_at g h0 h1 hk.1 hk.2).1, (cosnv_at g h0 h1 hk.1 hk.2).2]

theorem bcos_at (g : c.Good) (p : Par) (G : Int → ℝ) (l : Int) {n : Int} (h0 : -c.nf ≤ n) (h1 : n ≤ c.nf) :
    c.bcos p G n l = ∑ k ∈ Ico 0 c.s.nZeta, Real.cos (n * zetaGrid c.s k) * c.part p G 0 l k ∧
    c.bsin p G n l = ∑ k ∈ Ico 0 c.s.nZeta, Real.sin (n * zetaGrid c.s k) * c.part p G 0 l k := by
  unfold bcos bsin
  split
  · rename_i h
    exact g1_at g p G 0 l h h1
  · rename_i h
    obtain ⟨a, b⟩ := g1_at g p G 0 l (n := -n) (by omega) (by omega)
    rw [a, b, ← sum_neg_distrib]
    push_cast
    constructor <;>
    · refine sum_congr rfl fun k _ => ?_
      simp only [neg_mul, Real.cos_neg, Real.sin_neg, neg_neg]

/-- the source term -/
theorem bvec_eq (g : c.Good) (G : Int → ℝ) (p : Par) {n m : Int} (h0 : -c.nf ≤ n) (h1 : n ≤ c.nf) (hm0 : 0 ≤ m) (hm1 : m ≤ c.mf) :
    c.bvec G p n m = c.gridMean fun l k => G (l * c.s.nZeta + k) * p.fn (c.phase n m l k) := by
  rw [← fold g p n m fun l k => G (l * c.s.nZeta + k)]
  have key : ∀ l k, (G (l * c.s.nZeta + k) + p.sgn * G (c.revL l * c.s.nZeta + c.revK k)) * 0.5 = c.part p G 0 l k := by
    intro l k; rw [part_eq]; simp only [zero_add]
  simp only [key]
  obtain ⟨a, b⟩ := project g (c.part p G 0) n m hm0 hm1
  cases p
  · rw [← a]
    unfold bvec
    simp only [(bcos_at g .sin G _ h0 h1).1, (bcos_at g .sin G _ h0 h1).2]
  · rw [← b]
    unfold bvec
    simp only [(bcos_at g .cos G _ h0 h1).1, (bcos_at g .cos G _ h0 h1).2]

end LCtx
end Verif.Nestor
