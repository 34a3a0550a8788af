import Verif.Nestor.LaplaceSys
import Verif.Partition.Props

/-! # The linear system of all threads -/
namespace Verif.Nestor
open Verif Fourier Finset Partition

/-- the threads that solve for the potential -/
structure Net where
  s : Sizes.Sizes
  nf : Int
  mf : Int
  nt : Int

namespace Net
variable (w : Net)

/-- share of thread `t`, `tangential_partitioning.cc:15-32` -/
def thread (t : Int) : LCtx := ⟨w.s, w.nf, w.mf, splitMin w.s.nZnT w.nt t, splitMax w.s.nZnT w.nt t⟩
def sys : System := ⟨w.s.lasym, w.nf, w.mf⟩

/-- mode of the index `i = all_n * (mf + 1) + m`, e.g. `nestor.cc:160-161` -/
def nOf (i : Int) : Int := i / (w.mf + 1) - w.nf
def mOf (i : Int) : Int := i % (w.mf + 1)

/-- `PerformToroidalFourierTransforms`, `PerformPoloidalFourierTransforms` of a thread: blocks with the flat index of the column -/
noncomputable def blocks (grp : Int → Par → Int → ℝ) (t : Int) : Par → Par → Int → Int → ℝ :=
  fun a b i j => (w.thread t).amat (grp t) a b i (w.nOf j) (w.mOf j)
noncomputable def source (gstore : Int → Int → ℝ) (bsing : Int → Par → Int → ℝ) (t : Int) : (Par → Int → ℝ) × (Par → Int → ℝ) :=
  (fun p i => (w.thread t).bvec (gstore t) p (w.nOf i) (w.mOf i), bsing t)

structure Good : Prop where
  sizes : ∃ lasym nfp mpol ntor ntheta nzeta mg ng, Sizes.mk lasym nfp mpol ntor ntheta nzeta mg ng = .ok w.s
  nt : 1 ≤ w.nt
  nf0 : 0 ≤ w.nf
  nf1 : w.nf ≤ w.s.nnyq2
  mf0 : 0 ≤ w.mf
  mf1 : w.mf ≤ w.s.mnyq2

/-- `L` lists every thread once: the order in which threads enter a critical section -/
def Order (L : List Int) : Prop := L.Nodup ∧ ∀ t, t ∈ L ↔ 0 ≤ t ∧ t < w.nt

variable {w}

theorem Good.grid (g : w.Good) : GoodGrid w.s := by
  obtain ⟨_, _, _, _, _, _, _, _, h⟩ := g.sizes
  exact goodGrid_of_mk h

theorem Good.eff (g : w.Good) : w.s.nThetaEff = (if w.s.lasym then w.s.nThetaEven else w.s.nThetaReduced) ∧ w.s.nZnT = w.s.nThetaEff * w.s.nZeta := by
  obtain ⟨lasym, nfp, mpol, ntor, ntheta, nzeta, mg, ng, h⟩ := g.sizes
  obtain ⟨⟨a1, _⟩, _, _, ⟨_, b, d, _⟩, _⟩ := (Sizes.C07_sizes lasym nfp mpol ntor ntheta nzeta mg ng).2 w.s h
  rw [a1]
  exact ⟨b, by rw [d, mul_comm]⟩

theorem Good.nznt (g : w.Good) : 0 ≤ w.s.nZnT := by
  obtain ⟨lasym, nfp, mpol, ntor, ntheta, nzeta, mg, ng, h⟩ := g.sizes
  obtain ⟨_, _, _, ⟨_, _, _, d⟩, _⟩ := (Sizes.C07_sizes lasym nfp mpol ntor ntheta nzeta mg ng).2 w.s h
  omega

theorem Good.thread (g : w.Good) {t : Int} (h0 : 0 ≤ t) (h1 : t < w.nt) : (w.thread t).Good := by
  have hsp := C05_split w.s.nZnT w.nt g.nznt g.nt
  obtain ⟨s1, s2, s3, s4, s5⟩ := hsp
  have le := s3 t ⟨h0, h1⟩
  have lo : 0 ≤ splitMin w.s.nZnT w.nt t := by
    unfold splitMin
    have h1 := g.nznt
    have h2 := g.nt
    have := Int.tdiv_nonneg h1 (show 0 ≤ w.nt by omega)
    have := Int.tmod_nonneg w.nt h1
    simp only []
    split <;> nlinarith
  have hi : splitMax w.s.nZnT w.nt t ≤ w.s.nZnT := by
    by_contra h
    rcases lt_or_eq_of_le le with h' | h'
    · have := (s5 (splitMax w.s.nZnT w.nt t - 1)).2
      have hx := (s5 (splitMax w.s.nZnT w.nt t - 1)).not
      have : ∃! t', isThread w.nt t' ∧ splitMin w.s.nZnT w.nt t' ≤ splitMax w.s.nZnT w.nt t - 1 ∧ splitMax w.s.nZnT w.nt t - 1 < splitMax w.s.nZnT w.nt t' :=
        ⟨t, ⟨⟨h0, h1⟩, by omega, by omega⟩, fun t' ⟨_, c', d'⟩ => split_unique g.nznt (show 0 < w.nt by have := g.nt; omega) c' d' (by omega) (by omega)⟩
      have := (s5 (splitMax w.s.nZnT w.nt t - 1)).2 this
      omega
    · -- an empty share
      unfold splitMin splitMax at h'
      unfold splitMax at h
      simp only [] at h h'
      have q0 := Int.tdiv_nonneg g.nznt (show 0 ≤ w.nt by have := g.nt; omega)
      have q1 := Int.tmod_nonneg w.nt g.nznt
      have q2 := Int.tmod_lt_of_pos w.s.nZnT (show 0 < w.nt by have := g.nt; omega)
      have q3 := Int.mul_tdiv_add_tmod w.s.nZnT w.nt
      have := g.nt
      split at h
      · rename_i hh
        rw [if_pos hh] at h'
        nlinarith
      · rename_i hh
        rw [if_neg hh] at h'
        have : w.s.nZnT.tdiv w.nt = 0 := by nlinarith
        rw [this] at h q3
        omega
  refine ⟨g.grid, g.nf0, g.nf1, g.mf0, g.mf1, lo, le, ?_⟩
  have := g.eff.2
  show splitMax w.s.nZnT w.nt t ≤ w.s.nThetaEff * w.s.nZeta
  omega

theorem Order.sum {L : List Int} (h : w.Order L) (f : Int → ℝ) : (L.map f).sum = ∑ t ∈ Ico 0 w.nt, f t := by
  rw [← List.sum_toFinset f h.1]
  congr 1
  ext t
  rw [List.mem_toFinset, h.2, mem_Ico]

theorem mode_range (g : w.Good) {i : Int} (h0 : 0 ≤ i) (h1 : i < w.sys.mnpd) :
    (-w.nf ≤ w.nOf i ∧ w.nOf i ≤ w.nf ∧ 0 ≤ w.mOf i ∧ w.mOf i ≤ w.mf) ∧ (w.nf + w.nOf i) * (w.mf + 1) + w.mOf i = i := by
  have hm := g.mf0
  have hb : 0 < w.mf + 1 := by omega
  unfold nOf mOf
  have e1 := Int.mul_ediv_add_emod i (w.mf + 1)
  have e2 := Int.emod_nonneg i hb.ne'
  have e3 := Int.emod_lt_of_pos i hb
  have e4 := Int.ediv_nonneg h0 hb.le
  have e5 : i / (w.mf + 1) < 2 * w.nf + 1 := by
    apply Int.ediv_lt_of_lt_mul hb
    show i < (2 * w.nf + 1) * (w.mf + 1)
    have : w.sys.mnpd = (2 * w.nf + 1) * (w.mf + 1) := by unfold System.mnpd sys; ring
    omega
  refine ⟨⟨by omega, by omega, e2, by omega⟩, ?_⟩
  rw [show w.nf + (i / (w.mf + 1) - w.nf) = i / (w.mf + 1) by ring, mul_comm]
  exact e1

/-- the points of all threads -/
theorem sum_points (g : w.Good) (grp : Int → Par → Int → ℝ) (K : Par → Int → Int → ℝ) (p : Par) (i : Int)
    (hK : ∀ t, 0 ≤ t → t < w.nt → ∀ klp, (w.thread t).ztMin ≤ klp → klp < (w.thread t).ztMax →
      grp t p (i * (w.thread t).numLocal + (klp - (w.thread t).ztMin)) = K p i klp)
    {l k : Int} (hl0 : 0 ≤ l) (hl1 : l < w.s.nThetaEff) (hk0 : 0 ≤ k) (hk1 : k < w.s.nZeta) :
    ∑ t ∈ Ico 0 w.nt, (w.thread t).atPoint (grp t) p i l k = K p i (l * w.s.nZeta + k) := by
  have hin : 0 ≤ l * w.s.nZeta + k ∧ l * w.s.nZeta + k < w.s.nZnT := by
    rw [g.eff.2]
    have : 0 ≤ l * w.s.nZeta := mul_nonneg hl0 (by omega)
    refine ⟨by omega, ?_⟩
    nlinarith
  obtain ⟨t, ⟨ht, a, b⟩, hu⟩ := ((C05_split w.s.nZnT w.nt g.nznt g.nt).2.2.2.2 (l * w.s.nZeta + k)).1 hin
  rw [sum_eq_single t]
  · unfold LCtx.atPoint
    rw [if_pos ⟨a, b⟩]
    exact hK t ht.1 ht.2 _ a b
  · intro t' ht' hne
    rw [mem_Ico] at ht'
    unfold LCtx.atPoint
    rw [if_neg]
    rintro ⟨a', b'⟩
    exact hne (hu t' ⟨⟨ht'.1, ht'.2⟩, a', b'⟩)
  · intro h; exact absurd (by rw [mem_Ico]; exact ⟨ht.1, ht.2⟩) h

variable (w)
/-- phase of a mode at a grid point -/
noncomputable def phase (i l k : Int) : ℝ := w.mOf i * thetaGrid w.s l - w.nOf i * zetaGrid w.s k
/-- mean over the whole grid -/
noncomputable def mean (H : Int → Int → ℝ) : ℝ :=
  (∑ l ∈ Ico 0 w.s.nThetaEven, ∑ k ∈ Ico 0 w.s.nZeta, H l k) / ((w.s.nZeta * w.s.nThetaEven : Int) : ℝ)
/-- average over the surface with the weights `wInt` -/
noncomputable def average (H : Int → Int → ℝ) : ℝ := ∑ l ∈ Ico 0 w.s.nThetaEff, ∑ k ∈ Ico 0 w.s.nZeta, Sizes.wInt w.s l * H l k
/-- the same restricted to the first half of the grid, with the weights of the Fourier tables -/
noncomputable def halfAverage (H : Int → Int → ℝ) : ℝ :=
  ∑ l ∈ Ico 0 w.s.nThetaReduced, ∑ k ∈ Ico 0 w.s.nZeta, (if l = 0 ∨ l = w.s.nThetaReduced - 1 then (1 / ((w.s.nZeta * (w.s.nThetaReduced - 1) : Int) : ℝ)) / 2
  else 1 / ((w.s.nZeta * (w.s.nThetaReduced - 1) : Int) : ℝ)) * H l k
/-- the potential with coefficients `x` -/
noncomputable def potential (x : Int → ℝ) (l k : Int) : ℝ :=
  w.sys.kinds fun q => ∑ j ∈ Ico 0 w.sys.mnpd, x (w.sys.ix q j) * q.fn (w.phase j l k)
variable {w}

theorem halfAverage_sym (g : w.Good) (h : w.s.lasym = false) (H : Int → Int → ℝ) : w.halfAverage H = w.average H := by
  unfold halfAverage average
  rw [g.eff.1, if_neg (by rw [h]; simp)]
  refine sum_congr rfl fun l _ => sum_congr rfl fun k _ => ?_
  unfold Sizes.wInt
  simp only [h, Bool.not_false, Bool.true_and, Bool.false_eq_true, if_false]
  congr 1
  simp only [decide_eq_true_eq]

theorem mean_asym (g : w.Good) (h : w.s.lasym = true) (H : Int → Int → ℝ) : w.mean H = w.average H := by
  unfold mean average
  rw [g.eff.1, if_pos h, sum_div]
  refine sum_congr rfl fun l _ => ?_
  rw [sum_div]
  refine sum_congr rfl fun k _ => ?_
  unfold Sizes.wInt
  simp only [h, Bool.not_true, Bool.false_and, Bool.false_eq_true, if_false, if_true]
  rw [one_div, div_eq_mul_inv]
  exact mul_comm _ _

/-- blocks of all threads: rows of sines use half of the grid -/
theorem blocks_sin (g : w.Good) {L : List Int} (hL : w.Order L) (grp : Int → Par → Int → ℝ) (K : Par → Int → Int → ℝ) (i : Int)
    (hK : ∀ t, 0 ≤ t → t < w.nt → ∀ klp, (w.thread t).ztMin ≤ klp → klp < (w.thread t).ztMax →
      grp t .sin (i * (w.thread t).numLocal + (klp - (w.thread t).ztMin)) = K .sin i klp)
    (q : Par) {j : Int} (h0 : 0 ≤ j) (h1 : j < w.sys.mnpd) :
    ((L.map (w.blocks grp)).map fun b => b .sin q i j).sum = w.halfAverage fun l k => K .sin i (l * w.s.nZeta + k) * q.fn (w.phase j l k) := by
  obtain ⟨⟨m1, m2, m3, m4⟩, _⟩ := mode_range g h0 h1
  have ge := g.eff
  have gg := g.grid
  rw [List.map_map]
  have e : ∀ t ∈ L, ((fun b : Par → Par → Int → Int → ℝ => b .sin q i j) ∘ w.blocks grp) t
      = ∑ l ∈ Ico 0 w.s.nThetaReduced, ∑ k ∈ Ico 0 w.s.nZeta, (w.thread t).rw l * ((w.thread t).atPoint (grp t) .sin i l k * q.fn (w.phase j l k)) := by
    intro t ht
    obtain ⟨t0, t1⟩ := (hL.2 t).1 ht
    show (w.thread t).amat (grp t) .sin q i (w.nOf j) (w.mOf j) = _
    rw [LCtx.amat_sin (g.thread t0 t1) (grp t) q i m1 m2 m3 m4]
    refine sum_congr rfl fun l _ => ?_
    rw [sum_mul]
    exact sum_congr rfl fun k _ => mul_comm _ _
  rw [List.map_congr_left e, hL.sum, sum_comm]
  unfold halfAverage
  refine sum_congr rfl fun l hl => ?_
  rw [sum_comm]
  refine sum_congr rfl fun k hk => ?_
  rw [mem_Ico] at hl hk
  have e2 := sum_points g grp K .sin i hK (l := l) (k := k) hl.1 (by
    rw [ge.1]; have := gg.even; have := gg.nyqP; have := gg.mpol; split <;> omega) hk.1 hk.2
  beta_reduce
  rw [← e2, sum_mul, mul_sum]
  rfl

/-- blocks of all threads: rows of cosines use the whole grid -/
theorem blocks_cos (g : w.Good) (hl : w.s.lasym = true) {L : List Int} (hL : w.Order L) (grp : Int → Par → Int → ℝ) (K : Par → Int → Int → ℝ) (i : Int)
    (hK : ∀ t, 0 ≤ t → t < w.nt → ∀ klp, (w.thread t).ztMin ≤ klp → klp < (w.thread t).ztMax →
      grp t .cos (i * (w.thread t).numLocal + (klp - (w.thread t).ztMin)) = K .cos i klp)
    (q : Par) {j : Int} (h0 : 0 ≤ j) (h1 : j < w.sys.mnpd) :
    ((L.map (w.blocks grp)).map fun b => b .cos q i j).sum = w.average fun l k => K .cos i (l * w.s.nZeta + k) * q.fn (w.phase j l k) := by
  obtain ⟨⟨m1, m2, m3, m4⟩, _⟩ := mode_range g h0 h1
  have ge := g.eff
  rw [← mean_asym g hl, List.map_map]
  have e : ∀ t ∈ L, ((fun b : Par → Par → Int → Int → ℝ => b .cos q i j) ∘ w.blocks grp) t
      = w.mean fun l k => (w.thread t).atPoint (grp t) .cos i l k * q.fn (w.phase j l k) := by
    intro t ht
    obtain ⟨t0, t1⟩ := (hL.2 t).1 ht
    show (w.thread t).amat (grp t) .cos q i (w.nOf j) (w.mOf j) = _
    rw [LCtx.amat_cos (g.thread t0 t1) (grp t) q i m1 m2 m3 m4]
    rfl
  rw [List.map_congr_left e, hL.sum]
  unfold mean
  rw [← sum_div, sum_comm]
  congr 1
  refine sum_congr rfl fun l hl' => ?_
  rw [sum_comm]
  refine sum_congr rfl fun k hk => ?_
  rw [mem_Ico] at hl' hk
  have e2 := sum_points g grp K .cos i hK (l := l) (k := k) hl'.1 (by rw [ge.1, if_pos hl]; exact hl'.2) hk.1 hk.2
  beta_reduce
  rw [← e2, sum_mul]

/-- the right-hand side of all threads -/
theorem source_eq (g : w.Good) {L : List Int} (hL : w.Order L) (gstore : Int → Int → ℝ) (bsing : Int → Par → Int → ℝ) (p : Par) {i : Int}
    (h0 : 0 ≤ i) (h1 : i < w.sys.mnpd) (nfp : ℝ) :
    ((L.map (w.source gstore bsing)).map fun v => v.1 p i + v.2 p i / nfp).sum
      = ∑ t ∈ Ico 0 w.nt, (w.mean (fun l k => gstore t (l * w.s.nZeta + k) * p.fn (w.phase i l k)) + bsing t p i / nfp) := by
  obtain ⟨⟨m1, m2, m3, m4⟩, _⟩ := mode_range g h0 h1
  rw [List.map_map, ← hL.sum]
  congr 1
  refine List.map_congr_left fun t ht => ?_
  obtain ⟨t0, t1⟩ := (hL.2 t).1 ht
  show (w.thread t).bvec (gstore t) p (w.nOf i) (w.mOf i) + bsing t p i / nfp = _
  rw [LCtx.bvec_eq (g.thread t0 t1) (gstore t) p m1 m2 m3 m4]
  rfl

theorem kinds_swap {M : Finset Int} {N : Finset Int} (W : Int → Int → ℝ) (F : Par → Int → Int → ℝ) (y : System) :
    y.kinds (fun q => ∑ l ∈ M, ∑ k ∈ N, W l k * F q l k) = ∑ l ∈ M, ∑ k ∈ N, W l k * y.kinds fun q => F q l k := by
  unfold System.kinds
  split
  · simp only [mul_add, sum_add_distrib]
  · rfl

/-- sum over the unknowns of the blocks is the average against the potential -/
theorem average_potential (W : Int → Int → ℝ) (M N : Finset Int) (G : Int → Int → ℝ) (x : Int → ℝ) :
    (w.sys.kinds fun q => ∑ j ∈ Ico 0 w.sys.mnpd, (∑ l ∈ M, ∑ k ∈ N, W l k * (G l k * q.fn (w.phase j l k))) * x (w.sys.ix q j))
      = ∑ l ∈ M, ∑ k ∈ N, W l k * (G l k * w.potential x l k) := by
  have e : ∀ q : Par, ∑ j ∈ Ico 0 w.sys.mnpd, (∑ l ∈ M, ∑ k ∈ N, W l k * (G l k * q.fn (w.phase j l k))) * x (w.sys.ix q j)
      = ∑ l ∈ M, ∑ k ∈ N, (W l k * G l k) * ∑ j ∈ Ico 0 w.sys.mnpd, x (w.sys.ix q j) * q.fn (w.phase j l k) := by
    intro q
    simp only [sum_mul, mul_sum]
    rw [sum_comm]
    refine sum_congr rfl fun l _ => ?_
    rw [sum_comm]
    exact sum_congr rfl fun k _ => sum_congr rfl fun j _ => by ring
  simp only [e]
  rw [kinds_swap]
  unfold potential
  exact sum_congr rfl fun l _ => sum_congr rfl fun k _ => by ring

end Net
end Verif.Nestor
