import Verif.Nestor.LaplaceNet

/-! # C77, C78: the linear system for the potential

Specification: `Net.mean` is the mean over the grid of the whole surface, `Net.average` the average over the grid that the threads share with the
integration weights `wInt`, `Net.phase i` is `m u - n v` of the mode with index `i`, `Net.potential x` the Fourier series with coefficients `x`.
The threads may enter the critical sections in any order (`Net.Order`). -/
namespace Verif.Nestor
open Verif Fourier Finset Partition

/-- what the other classes give to the solver: thread by thread -/
structure Given where
  greenp : Int → Int → ℝ
  gstore : Int → Int → ℝ
  singular : Int → Par → Int → ℝ
  bsing : Int → Par → Int → ℝ

namespace Net
variable {w : Net}

/-- `grpmn_sin`, `grpmn_cos` of thread `t` after `TransformGreensFunctionDerivative` and `AccumulateFullGrpmn`, as called in `nestor.cc:77-95` -/
noncomputable def grp (w : Net) (d : Given) (t : Int) : Par → Int → ℝ :=
  (w.thread t).accumulate ((w.thread t).transformGreen (d.greenp t)) (d.singular t)

/-- matrix and right-hand side, `nestor.cc:77-139` -/
noncomputable def matrix (w : Net) (d : Given) (L : List Int) : Int → ℝ := w.sys.buildMatrix (L.map (w.blocks (w.grp d)))
noncomputable def vector (w : Net) (d : Given) (L : List Int) : Int → ℝ := w.sys.buildVector w.s.nfp (L.map (w.source d.gstore d.bsing))

/-- the threads hold shares of kernels on the whole surface: `GP P Q` regularized, `SG p i P` the transform of the singular part -/
structure Shares (w : Net) (d : Given) (GP : Int → Int → ℝ) (SG : Par → Int → Int → ℝ) : Prop where
  green : ∀ t, 0 ≤ t → t < w.nt → ∀ klp kl, (w.thread t).ztMin ≤ klp → klp < (w.thread t).ztMax → 0 ≤ kl → kl < w.s.nThetaEven * w.s.nZeta →
    d.greenp t ((klp - (w.thread t).ztMin) * (w.s.nThetaEven * w.s.nZeta) + kl) = GP klp kl
  sing : ∀ t, 0 ≤ t → t < w.nt → ∀ p i klp, 0 ≤ i → i < w.sys.mnpd → (w.thread t).ztMin ≤ klp → klp < (w.thread t).ztMax →
    d.singular t p (i * (w.thread t).numLocal + (klp - (w.thread t).ztMin)) = SG p i klp

/-- the transformed kernel at a point of the surface -/
noncomputable def kernel (w : Net) (GP : Int → Int → ℝ) (SG : Par → Int → Int → ℝ) (p : Par) (i klp : Int) : ℝ :=
  w.mean (fun l k => GP klp (l * w.s.nZeta + k) * p.fn (w.phase i l k)) + SG p i klp / w.s.nfp

/-- **C77** (transform): the arrays `grpmn` hold the Fourier integrals of the kernel over the whole surface -/
theorem C77_transform (g : w.Good) {d : Given} {GP : Int → Int → ℝ} {SG : Par → Int → Int → ℝ} (hd : w.Shares d GP SG) {p : Par} (hp : w.sys.Has p)
    {i : Int} (h0 : 0 ≤ i) (h1 : i < w.sys.mnpd) (t : Int) (t0 : 0 ≤ t) (t1 : t < w.nt) (klp : Int)
    (a : (w.thread t).ztMin ≤ klp) (b : klp < (w.thread t).ztMax) :
    w.grp d t p (i * (w.thread t).numLocal + (klp - (w.thread t).ztMin)) = w.kernel GP SG p i klp := by
  obtain ⟨⟨m1, m2, m3, m4⟩, e⟩ := mode_range g h0 h1
  have gt := g.thread t0 t1
  have e1 := LCtx.transformGreen_eq gt (d.greenp t) p hp a b (N := w.nOf i) (m := w.mOf i) m1 m2 m3 m4
  have e' : ((w.thread t).nf + w.nOf i) * ((w.thread t).mf + 1) + w.mOf i = i := e
  rw [e'] at e1
  have e2 := hd.sing t t0 t1 p i klp h0 h1 a b
  have e3 : (w.thread t).gridMean (fun l k => d.greenp t ((klp - (w.thread t).ztMin) * ((w.thread t).s.nThetaEven * (w.thread t).s.nZeta) + (l * (w.thread t).s.nZeta + k))
      * p.fn ((w.thread t).phase (w.nOf i) (w.mOf i) l k)) = w.mean (fun l k => GP klp (l * w.s.nZeta + k) * p.fn (w.phase i l k)) := by
    unfold LCtx.gridMean mean
    congr 1
    refine sum_congr rfl fun l hl => sum_congr rfl fun k hk => ?_
    rw [mem_Ico] at hl hk
    have gz := g.grid.nz
    have := hd.green t t0 t1 klp (l * w.s.nZeta + k) a b (by have := mul_nonneg hl.1 (show 0 ≤ w.s.nZeta by omega); have := hk.1; omega) (by
      have h2 : l < w.s.nThetaEven := hl.2
      have h3 : k < w.s.nZeta := hk.2
      nlinarith)
    beta_reduce
    rw [← this]
    rfl
  unfold grp LCtx.accumulate kernel
  cases p
  · simp only []
    rw [e1, e2, e3, mul_one_div]
    rfl
  · have hl : (w.thread t).s.lasym = true := by rcases hp with h | h; · cases h
                                                · exact h
    simp only [hl, if_true]
    rw [e1, e2, e3, mul_one_div]
    rfl

/-- **C77** (matrix): off the redundant modes an entry is the average of kernel times basis function, plus 1/2 on the diagonal (1 for the constant).
    For the rows of the sines this needs stellarator symmetry, see C78. -/
theorem C77_matrix (g : w.Good) {d : Given} {GP : Int → Int → ℝ} {SG : Par → Int → Int → ℝ} (hd : w.Shares d GP SG) {L : List Int} (hL : w.Order L)
    {p q : Par} (hp : w.sys.Has p) (hq : w.sys.Has q) (hr : p = .cos ∨ w.s.lasym = false)
    {i j : Int} (h0 : 0 ≤ i) (h1 : i < w.sys.mnpd) (k0 : 0 ≤ j) (k1 : j < w.sys.mnpd) (hi : ¬ (w.mOf i = 0 ∧ w.nOf i < 0)) :
    w.matrix d L (w.sys.ix p i + w.sys.ix q j * w.sys.dim)
      = w.average (fun l k => w.kernel GP SG p i (l * w.s.nZeta + k) * q.fn (w.phase j l k))
        + if p = q ∧ i = j then (if p = .cos ∧ w.mOf i = 0 ∧ w.nOf i = 0 then 1 else 1 / 2) else 0 := by
  classical
  obtain ⟨⟨m1, m2, m3, m4⟩, e⟩ := mode_range g h0 h1
  have hm := g.mf0
  have hred : ¬ w.sys.Redundant i := by
    rintro ⟨n, n0, n1, rfl⟩
    have n1' : n < w.nf := n1
    apply hi
    unfold mOf nOf
    refine ⟨Int.mul_emod_left _ _, ?_⟩
    show n * (w.mf + 1) / (w.mf + 1) - w.nf < 0
    rw [Int.mul_ediv_cancel _ (by omega)]
    omega
  have hdiag : w.sys.diag p i = if p = .cos ∧ w.mOf i = 0 ∧ w.nOf i = 0 then 1 else 1 / 2 := by
    unfold System.diag
    have : (i = w.sys.nf * (w.sys.mf + 1)) = (w.mOf i = 0 ∧ w.nOf i = 0) := by
      apply propext
      show i = w.nf * (w.mf + 1) ↔ _
      constructor
      · rintro rfl
        unfold mOf nOf
        refine ⟨Int.mul_emod_left _ _, ?_⟩
        rw [Int.mul_ediv_cancel _ (by omega)]
        omega
      · rintro ⟨h2, h3⟩
        rw [h2, h3] at e
        rw [← e]; ring
    simp only [this]
    split <;> norm_num
  unfold matrix
  rw [System.buildMatrix_at hm g.nf0 _ hp hq h0 h1 k0 k1, if_neg hred, hdiag]
  congr 1
  cases p
  · have hs : w.s.lasym = false := by rcases hr with h | h; · cases h
                                      · exact h
    rw [← halfAverage_sym g hs]
    exact blocks_sin g hL _ (w.kernel GP SG) i (fun t t0 t1 klp a b => C77_transform g hd hp h0 h1 t t0 t1 klp a b) q k0 k1
  · have hl : w.s.lasym = true := by rcases hp with h | h; · cases h
                                     · exact h
    exact blocks_cos g hl hL _ (w.kernel GP SG) i (fun t t0 t1 klp a b => C77_transform g hd hp h0 h1 t t0 t1 klp a b) q k0 k1

theorem redundant_iff (g : w.Good) {i : Int} (h0 : 0 ≤ i) (h1 : i < w.sys.mnpd) : w.sys.Redundant i ↔ w.mOf i = 0 ∧ w.nOf i < 0 := by
  obtain ⟨⟨m1, m2, m3, m4⟩, e⟩ := mode_range g h0 h1
  have hm := g.mf0
  constructor
  · rintro ⟨n, n0, n1, rfl⟩
    have n1' : n < w.nf := n1
    unfold mOf nOf
    refine ⟨Int.mul_emod_left _ _, ?_⟩
    show n * (w.mf + 1) / (w.mf + 1) - w.nf < 0
    rw [Int.mul_ediv_cancel _ (by omega)]
    omega
  · rintro ⟨h2, h3⟩
    refine ⟨w.nf + w.nOf i, by omega, ?_, ?_⟩
    · show w.nf + w.nOf i < w.nf
      omega
    · show i = (w.nf + w.nOf i) * (w.mf + 1)
      rw [h2, add_zero] at e
      exact e.symm

/-- **C77** (redundant modes): a solution has no coefficients of the modes `m = 0`, `n < 0` -/
theorem C77_redundant (g : w.Good) (d : Given) (L L' : List Int) {x : Int → ℝ} (hx : w.sys.Solves (w.matrix d L) (w.vector d L') x)
    {p : Par} (hp : w.sys.Has p) {i : Int} (h0 : 0 ≤ i) (h1 : i < w.sys.mnpd) (hi : w.mOf i = 0 ∧ w.nOf i < 0) : x (w.sys.ix p i) = 0 := by
  classical
  have hr := (redundant_iff g h0 h1).2 hi
  obtain ⟨r0, r1⟩ := System.ix_range hp h0 h1
  have := hx _ r0 r1
  unfold matrix vector at this
  rw [System.row_eq g.mf0 g.nf0 _ x hp h0 h1, if_pos hr, System.buildVector_at g.mf0 _ _ hp h0 h1, if_pos hr, System.not_mn0 hr g.mf0, zero_add] at this
  linarith

/-- **C77** (equation): a solution satisfies the Galerkin form of the integral equation, `Φ/2 + ∫ G Φ = source`, with the average over the surface
    and the Fourier integral of the source; for the rows of the sines under stellarator symmetry. -/
theorem C77_equation (g : w.Good) {d : Given} {GP : Int → Int → ℝ} {SG : Par → Int → Int → ℝ} (hd : w.Shares d GP SG) {L L' : List Int}
    (hL : w.Order L) (hL' : w.Order L') {x : Int → ℝ} (hx : w.sys.Solves (w.matrix d L) (w.vector d L') x)
    {p : Par} (hp : w.sys.Has p) (hr : p = .cos ∨ w.s.lasym = false) {i : Int} (h0 : 0 ≤ i) (h1 : i < w.sys.mnpd) (hi : ¬ (w.mOf i = 0 ∧ w.nOf i < 0)) :
    (if p = .cos ∧ w.mOf i = 0 ∧ w.nOf i = 0 then 1 else 1 / 2) * x (w.sys.ix p i)
      + w.average (fun l k => w.kernel GP SG p i (l * w.s.nZeta + k) * w.potential x l k)
      = ∑ t ∈ Ico 0 w.nt, (w.mean (fun l k => d.gstore t (l * w.s.nZeta + k) * p.fn (w.phase i l k)) + d.bsing t p i / w.s.nfp) := by
  classical
  have hred : ¬ w.sys.Redundant i := fun h => hi ((redundant_iff g h0 h1).1 h)
  obtain ⟨r0, r1⟩ := System.ix_range hp h0 h1
  have hrow := hx _ r0 r1
  unfold vector at hrow
  rw [System.buildVector_at g.mf0 _ _ hp h0 h1, if_neg hred, source_eq g hL' _ _ p h0 h1] at hrow
  rw [← hrow, System.sum_dim _ (by omega)]
  have e : w.sys.kinds (fun q => ∑ j ∈ Ico 0 w.sys.mnpd, w.matrix d L (w.sys.ix p i + w.sys.ix q j * w.sys.dim) * x (w.sys.ix q j))
      = w.sys.kinds (fun q => ∑ j ∈ Ico 0 w.sys.mnpd, (∑ l ∈ Ico 0 w.s.nThetaEff, ∑ k ∈ Ico 0 w.s.nZeta,
          Sizes.wInt w.s l * (w.kernel GP SG p i (l * w.s.nZeta + k) * q.fn (w.phase j l k))) * x (w.sys.ix q j)
        + if p = q then (if p = .cos ∧ w.mOf i = 0 ∧ w.nOf i = 0 then 1 else 1 / 2) * x (w.sys.ix p i) else 0) := by
    refine System.kinds_congr fun q hq => ?_
    have e1 : ∀ j ∈ Ico 0 w.sys.mnpd, w.matrix d L (w.sys.ix p i + w.sys.ix q j * w.sys.dim) * x (w.sys.ix q j)
        = (∑ l ∈ Ico 0 w.s.nThetaEff, ∑ k ∈ Ico 0 w.s.nZeta,
          Sizes.wInt w.s l * (w.kernel GP SG p i (l * w.s.nZeta + k) * q.fn (w.phase j l k))) * x (w.sys.ix q j)
        + if p = q ∧ i = j then (if p = .cos ∧ w.mOf i = 0 ∧ w.nOf i = 0 then 1 else 1 / 2) * x (w.sys.ix p i) else 0 := by
      intro j hj
      rw [mem_Ico] at hj
      rw [C77_matrix g hd hL hp hq hr h0 h1 hj.1 hj.2 hi, add_mul]
      congr 1
      by_cases hpq : p = q ∧ i = j
      · rw [if_pos hpq, if_pos hpq]
        obtain ⟨rfl, rfl⟩ := hpq
        rfl
      · rw [if_neg hpq, if_neg hpq, zero_mul]
    rw [sum_congr rfl e1, sum_add_distrib]
    congr 1
    by_cases hpq : p = q
    · simp only [hpq, true_and, if_true]
      rw [sum_ite_eq, if_pos (by rw [mem_Ico]; omega)]
    · simp [hpq]
  rw [e, System.kinds_add, System.kinds_single hp, average_potential (fun l _ => Sizes.wInt w.s l) _ _ (fun l k => w.kernel GP SG p i (l * w.s.nZeta + k)) x]
  unfold average
  rw [add_comm]

/-! ## rows of the sines without symmetry -/

/-- **C78**: without stellarator symmetry the rows of the sines use half of the surface, with the weights that are meant for a folded function.
    Full claim: the entry is the average over the surface as in C77; it fails (`C78_sine_rows_fail`). -/
theorem C78_sine_rows_partial (g : w.Good) {d : Given} {GP : Int → Int → ℝ} {SG : Par → Int → Int → ℝ} (hd : w.Shares d GP SG) {L : List Int}
    (hL : w.Order L) {q : Par} (hq : w.sys.Has q) {i j : Int} (h0 : 0 ≤ i) (h1 : i < w.sys.mnpd) (k0 : 0 ≤ j) (k1 : j < w.sys.mnpd)
    (hi : ¬ (w.mOf i = 0 ∧ w.nOf i < 0)) :
    w.matrix d L (w.sys.ix .sin i + w.sys.ix q j * w.sys.dim)
      = w.halfAverage (fun l k => w.kernel GP SG .sin i (l * w.s.nZeta + k) * q.fn (w.phase j l k)) + if q = .sin ∧ i = j then 1 / 2 else 0 := by
  classical
  have hred : ¬ w.sys.Redundant i := fun h => hi ((redundant_iff g h0 h1).1 h)
  have hp : w.sys.Has .sin := Or.inl rfl
  unfold matrix
  rw [System.buildMatrix_at g.mf0 g.nf0 _ hp hq h0 h1 k0 k1, if_neg hred]
  congr 1
  · exact blocks_sin g hL _ (w.kernel GP SG) i (fun t t0 t1 klp a b => C77_transform g hd hp h0 h1 t t0 t1 klp a b) q k0 k1
  · unfold System.diag
    cases q
    · simp; norm_num
    · simp

/-- **C78**: the entries are right where kernel times basis function does not change under reflection, e.g. in the block of sines for a kernel that is
    odd in `P` -/
theorem C78_even_partial (g : w.Good) (hl : w.s.lasym = true) (H : Int → Int → ℝ)
    (hH : ∀ l k, 0 ≤ l → l < w.s.nThetaEven → 0 ≤ k → k < w.s.nZeta → H ((w.s.nThetaEven - l) % w.s.nThetaEven) ((w.s.nZeta - k) % w.s.nZeta) = H l k) :
    w.halfAverage H = w.average H := by
  have gt := g.thread le_rfl (show 0 < w.nt by have := g.nt; omega)
  rw [← mean_asym g hl]
  have := LCtx.half_rows gt (fun l => ∑ k ∈ Ico 0 w.s.nZeta, H l k) (by
    intro l l0 l1
    have e : (w.thread 0).revL l = (w.s.nThetaEven - l) % w.s.nThetaEven := by
      show (w.s.nThetaEven - l).tmod w.s.nThetaEven = _
      have l1' : l < w.s.nThetaEven := l1
      rw [Int.tmod_eq_emod_of_nonneg (by omega)]
    rw [e, ← LCtx.sum_rev w.s.nZeta]
    refine sum_congr rfl fun k hk => ?_
    rw [mem_Ico] at hk
    rw [Int.tmod_eq_emod_of_nonneg (by omega)]
    exact hH l k l0 l1 hk.1 hk.2)
  unfold mean
  refine Eq.trans ?_ this
  unfold halfAverage
  refine sum_congr rfl fun l _ => ?_
  rw [← mul_sum, mul_comm]
  rfl

/-- **C78** is false of the code: one thread, 8 points, and a Green function that is 1 between point 7 and point 1 only.  The entry in the row of
    `sin u` and the column of the constant is 0, the average of the kernel is not. -/
theorem C78_sine_rows_fail : ∃ (w : Net) (d : Given) (GP : Int → Int → ℝ), w.Good ∧ w.s.lasym = true ∧ w.Shares d GP (fun _ _ _ => 0) ∧ w.Order [0] ∧
    w.matrix d [0] (w.sys.ix .sin 1 + w.sys.ix .cos 0 * w.sys.dim) = 0 ∧
    w.average (fun l k => w.kernel GP (fun _ _ _ => 0) .sin 1 (l * w.s.nZeta + k) * Par.cos.fn (w.phase 0 l k)) ≠ 0 := by
  obtain ⟨s, hs⟩ : ∃ s, Sizes.mk true 1 1 0 0 0 0 0 = .ok s := ⟨_, rfl⟩
  have hs' : s.lasym = true ∧ s.nThetaEven = 8 ∧ s.nZeta = 1 ∧ s.nThetaReduced = 5 ∧ s.nThetaEff = 8 ∧ s.nZnT = 8 ∧ 0 ≤ s.nnyq2 ∧ 1 ≤ s.mnyq2 := by
    cases hs; decide
  obtain ⟨e1, e2, e3, e4, e5, e6, e7, e8⟩ := hs'
  have g : Net.Good ⟨s, 0, 1, 1⟩ := ⟨⟨_, _, _, _, _, _, _, _, hs⟩, le_rfl, le_rfl, e7, by norm_num, e8⟩
  have ho : Net.Order ⟨s, 0, 1, 1⟩ [0] := ⟨List.nodup_singleton 0, fun t => by
    rw [List.mem_singleton]
    show t = 0 ↔ 0 ≤ t ∧ t < 1
    omega⟩
  have hmin : (Net.thread ⟨s, 0, 1, 1⟩ 0).ztMin = 0 := by
    show splitMin s.nZnT 1 0 = 0
    rw [e6]; decide
  have hd : Net.Shares ⟨s, 0, 1, 1⟩ ⟨fun _ i => if i = 57 then 1 else 0, fun _ _ => 0, fun _ _ _ => 0, fun _ _ _ => 0⟩
      (fun klp kl => if klp * 8 + kl = 57 then 1 else 0) fun _ _ _ => 0 := by
    refine ⟨fun t t0 t1 klp kl _ _ _ _ => ?_, fun t t0 t1 p i klp _ _ _ _ => rfl⟩
    have t1' : t < 1 := t1
    have ht : t = 0 := by omega
    subst ht
    simp only []
    rw [hmin, e2, e3, sub_zero, mul_one]
  have hker : ∀ klp, 0 ≤ klp → klp < 8 → Net.kernel ⟨s, 0, 1, 1⟩ (fun klp kl => if klp * 8 + kl = 57 then 1 else 0) (fun _ _ _ => 0) .sin 1 klp
      = if klp = 7 then Real.sin (Real.pi / 4) / 8 else 0 := by
    intro klp k0 k1
    unfold kernel mean phase
    simp only [e2, e3, mOf, nOf]
    rw [show Ico (0 : Int) 1 = {0} by decide, show Ico (0 : Int) 8 = {0, 1, 2, 3, 4, 5, 6, 7} by decide]
    simp only [sum_singleton, mul_one, add_zero, zero_div]
    rw [sum_eq_single 1]
    · have : ((klp * 8 + 1 = 57) = (klp = 7)) := by apply propext; omega
      simp only [this]
      split
      · simp only [Par.fn, thetaGrid, zetaGrid, e2, e3]
        norm_num
        rw [show 2 * Real.pi / 8 = Real.pi / 4 by ring, Real.sin_pi_div_four]
      · simp
    · intro l hl hne
      have : l = 0 ∨ l = 2 ∨ l = 3 ∨ l = 4 ∨ l = 5 ∨ l = 6 ∨ l = 7 := by
        simp only [mem_insert, mem_singleton] at hl
        omega
      have : ¬ klp * 8 + l = 57 := by omega
      rw [if_neg this, zero_mul]
    · intro h; exact absurd (by decide) h
  refine ⟨⟨s, 0, 1, 1⟩, ⟨fun _ i => if i = 57 then 1 else 0, fun _ _ => 0, fun _ _ _ => 0, fun _ _ _ => 0⟩,
    fun klp kl => if klp * 8 + kl = 57 then 1 else 0, g, e1, hd, ho, ?_, ?_⟩
  · rw [C78_sine_rows_partial g hd ho (q := .cos) (Or.inr e1) (i := 1) (j := 0) (by norm_num) (by show (1 : Int) < (1 + 1) * (2 * 0 + 1); norm_num)
      le_rfl (by show (0 : Int) < (1 + 1) * (2 * 0 + 1); norm_num) (by show ¬ ((1 : Int) % (1 + 1) = 0 ∧ (1 : Int) / (1 + 1) - 0 < 0); norm_num)]
    simp only [reduceCtorEq, false_and, if_false, add_zero]
    unfold halfAverage
    refine sum_eq_zero fun l hl => sum_eq_zero fun k hk => ?_
    rw [mem_Ico] at hl hk
    simp only [e3, e4] at hl hk
    simp only [e3]
    rw [hker _ (by omega) (by omega), if_neg (show ¬ l * 1 + k = 7 by omega), zero_mul, mul_zero]
  · unfold average
    simp only [e3, e5]
    rw [show Ico (0 : Int) 1 = {0} by decide]
    simp only [sum_singleton, mul_one, add_zero]
    rw [sum_eq_single 7]
    · rw [hker 7 (by norm_num) (by norm_num), if_pos rfl]
      have h1 : Par.cos.fn (Net.phase ⟨s, 0, 1, 1⟩ 0 7 0) = 1 := by
        unfold phase mOf nOf
        simp [Par.fn, zetaGrid]
      have h2 : 0 < Real.sin (Real.pi / 4) := Real.sin_pos_of_pos_of_lt_pi (by positivity) (by linarith [Real.pi_pos])
      have h3 : (Sizes.wInt s 7 : ℝ) = 1 / 8 := by
        unfold Sizes.wInt
        simp only [e1, e2, e3]
        norm_num
      rw [h1, h3]
      positivity
    · intro l hl hne
      rw [mem_Ico] at hl
      rw [hker l hl.1 hl.2, if_neg hne, zero_mul, mul_zero]
    · intro h; exact absurd (by decide) h

/-- C77: three threads that enter in the order 2, 0, 1 -/
example (lasym : Bool) : ∃ w : Net, w.Good ∧ w.Order [2, 0, 1] ∧ w.s.lasym = lasym ∧ w.nf = 1 ∧ w.mf = 3 ∧ w.sys.mnpd = 12 ∧
    w.mOf 0 = 0 ∧ w.nOf 0 = -1 ∧ w.mOf 11 = 3 ∧ w.nOf 11 = 1 := by
  obtain ⟨s, hs⟩ : ∃ s, Sizes.mk lasym 2 2 1 0 0 0 0 = .ok s := ⟨_, rfl⟩
  have hs' : s.lasym = lasym ∧ 1 ≤ s.nnyq2 ∧ 3 ≤ s.mnyq2 := by
    cases lasym <;> (cases hs; decide)
  refine ⟨⟨s, 1, 3, 3⟩, ⟨⟨_, _, _, _, _, _, _, _, hs⟩, by norm_num, by norm_num, hs'.2.1, by norm_num, hs'.2.2⟩, ⟨by decide, fun t => ?_⟩, hs'.1, rfl, rfl,
    by show ((3 : Int) + 1) * (2 * 1 + 1) = 12; norm_num, by show (0 : Int) % (3 + 1) = 0; norm_num, by show (0 : Int) / (3 + 1) - 1 = -1; norm_num,
    by show (11 : Int) % (3 + 1) = 3; norm_num, by show (11 : Int) / (3 + 1) - 1 = 1; norm_num⟩
  simp only [List.mem_cons, List.not_mem_nil, or_false]
  omega

end Net
end Verif.Nestor
