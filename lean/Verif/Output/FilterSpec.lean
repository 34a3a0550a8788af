import Verif.Fourier.Orth
import Verif.Transform.Series

/-! # Specification of a low-pass filter on the angular grid -/
namespace Verif.Output
open Verif Verif.Fourier Finset

/-- weight of a poloidal grid point of the half grid: the end points are shared with the other half -/
noncomputable def endWeight (s : Sizes.Sizes) (l : Int) : ℝ := if l = 0 ∨ l = s.nThetaReduced - 1 then 1 / 2 else 1

/-- toroidal angle of grid point `k` -/
noncomputable def phiGrid (s : Sizes.Sizes) (k : Int) : ℝ := zetaGrid s k / s.nfp

/-- `F` is even, has only the modes `m < mpol`, `n ≤ ntor`, and what it leaves of the grid values `f` is orthogonal to these modes -/
def EvenFilter (s : Sizes.Sizes) (f : Int → Int → ℝ) (F : ℝ → ℝ → ℝ) : Prop :=
  (∃ cc ss, ∀ θ φ, F θ φ = productCos s.mpol s.ntor cc ss θ (s.nfp * φ)) ∧
  ∀ m n, 0 ≤ m → m < s.mpol → 0 ≤ n → n ≤ s.ntor →
    ∑ k ∈ Ico 0 s.nZeta, ∑ l ∈ Ico 0 s.nThetaReduced,
      endWeight s l * (f k l - F (thetaGrid s l) (phiGrid s k)) * (Real.cos (m * thetaGrid s l) * Real.cos (n * zetaGrid s k)) = 0 ∧
    ∑ k ∈ Ico 0 s.nZeta, ∑ l ∈ Ico 0 s.nThetaReduced,
      endWeight s l * (f k l - F (thetaGrid s l) (phiGrid s k)) * (Real.sin (m * thetaGrid s l) * Real.sin (n * zetaGrid s k)) = 0

/-- the same for odd functions -/
def OddFilter (s : Sizes.Sizes) (f : Int → Int → ℝ) (F : ℝ → ℝ → ℝ) : Prop :=
  (∃ sc cs, ∀ θ φ, F θ φ = productSin s.mpol s.ntor sc cs θ (s.nfp * φ)) ∧
  ∀ m n, 0 ≤ m → m < s.mpol → 0 ≤ n → n ≤ s.ntor →
    ∑ k ∈ Ico 0 s.nZeta, ∑ l ∈ Ico 0 s.nThetaReduced,
      endWeight s l * (f k l - F (thetaGrid s l) (phiGrid s k)) * (Real.sin (m * thetaGrid s l) * Real.cos (n * zetaGrid s k)) = 0 ∧
    ∑ k ∈ Ico 0 s.nZeta, ∑ l ∈ Ico 0 s.nThetaReduced,
      endWeight s l * (f k l - F (thetaGrid s l) (phiGrid s k)) * (Real.cos (m * thetaGrid s l) * Real.sin (n * zetaGrid s k)) = 0

/-- sum over the grid with two factors of the basis tables -/
noncomputable def coefOf (s : Sizes.Sizes) (U : PolEntry → ℝ) (V : TorEntry → ℝ) (f : Int → Int → ℝ) (m n : Int) : ℝ :=
  ∑ k ∈ Ico 0 s.nZeta, ∑ l ∈ Ico 0 s.nThetaReduced, f k l * U (polEntry s scale m l) * V (torEntry s scale s.nfp n k)

section
variable {s : Sizes.Sizes} {lasym : Bool} {nfp mpol ntor ntheta nzeta mg ng : Int} (hs : Sizes.mk lasym nfp mpol ntor ntheta nzeta mg ng = .ok s)
include hs

theorem norm_ne : (1 / ((s.nZeta * (s.nThetaReduced - 1) : Int) : ℝ)) ≠ 0 := by
  have g := goodGrid_of_mk hs
  have h1 := g.nz
  have h2 := g.nyqP
  have h3 := g.mpol
  have : (s.nZeta * (s.nThetaReduced - 1) : Int) ≠ 0 := mul_ne_zero (by omega) (by omega)
  exact one_div_ne_zero (by exact_mod_cast this)

theorem nfp_ne : (s.nfp : ℝ) ≠ 0 := by
  obtain ⟨h, h'⟩ := Sizes.C07_sizes lasym nfp mpol ntor ntheta nzeta mg ng
  have h1 := (h.2 ⟨s, hs⟩).1
  have h2 := (h' s hs).1.2.1
  have : s.nfp ≠ 0 := by omega
  exact_mod_cast this

theorem nfp_phi (k : Int) : (s.nfp : ℝ) * phiGrid s k = zetaGrid s k := by
  unfold phiGrid
  have := nfp_ne hs
  field_simp

theorem end_sin (m l : Int) : endWeight s l * Real.sin (m * thetaGrid s l) = Real.sin (m * thetaGrid s l) := by
  have g := goodGrid_of_mk hs
  unfold endWeight
  split_ifs with h
  · have : Real.sin (m * thetaGrid s l) = 0 := by
      rcases h with rfl | rfl
      · simp [thetaGrid]
      · have h3 : ((s.nThetaReduced : ℝ) - 1) ≠ 0 := by
          have h1 := g.nyqP
          have h2 := g.mpol
          have : (2:ℝ) ≤ s.nThetaReduced := by exact_mod_cast (by omega : (2 : Int) ≤ s.nThetaReduced)
          intro hh; linarith
        have : (m : ℝ) * thetaGrid s (s.nThetaReduced - 1) = m * Real.pi := by
          unfold thetaGrid
          rw [g.even]
          push_cast
          field_simp
        rw [this, Real.sin_int_mul_pi]
    rw [this, mul_zero]
  · rw [one_mul]

/-- pull the normalisation out of a coefficient -/
theorem sum_cosmui (V : TorEntry → ℝ) (c : Int → ℝ) (n : Int) (hV : ∀ k, V (torEntry s scale s.nfp n k) = c k * scale n) (f : Int → Int → ℝ) (m : Int) :
    coefOf s PolEntry.cosmui V f m n = (1 / ((s.nZeta * (s.nThetaReduced - 1) : Int) : ℝ)) * scale m * scale n *
      ∑ k ∈ Ico 0 s.nZeta, ∑ l ∈ Ico 0 s.nThetaReduced, endWeight s l * f k l * (Real.cos (m * thetaGrid s l) * c k) := by
  unfold coefOf
  rw [Finset.mul_sum]
  refine Finset.sum_congr rfl fun k _ => ?_
  rw [Finset.mul_sum]
  refine Finset.sum_congr rfl fun l _ => ?_
  rw [hV]
  simp only [polEntry, endWeight, thetaGrid]
  split_ifs <;> ring

theorem sum_sinmui (V : TorEntry → ℝ) (c : Int → ℝ) (n : Int) (hV : ∀ k, V (torEntry s scale s.nfp n k) = c k * scale n) (f : Int → Int → ℝ) (m : Int) :
    coefOf s PolEntry.sinmui V f m n = (1 / ((s.nZeta * (s.nThetaReduced - 1) : Int) : ℝ)) * scale m * scale n *
      ∑ k ∈ Ico 0 s.nZeta, ∑ l ∈ Ico 0 s.nThetaReduced, endWeight s l * f k l * (Real.sin (m * thetaGrid s l) * c k) := by
  unfold coefOf
  rw [Finset.mul_sum]
  refine Finset.sum_congr rfl fun k _ => ?_
  rw [Finset.mul_sum]
  refine Finset.sum_congr rfl fun l _ => ?_
  rw [hV]
  have := end_sin hs m l
  calc f k l * (polEntry s scale m l).sinmui * (c k * scale n)
      = (1 / ((s.nZeta * (s.nThetaReduced - 1) : Int) : ℝ)) * scale m * scale n * (f k l * (Real.sin (m * thetaGrid s l) * c k)) := by
        simp only [polEntry, thetaGrid]; ring
    _ = (1 / ((s.nZeta * (s.nThetaReduced - 1) : Int) : ℝ)) * scale m * scale n * (f k l * ((endWeight s l * Real.sin (m * thetaGrid s l)) * c k)) := by rw [this]
    _ = _ := by ring

theorem coefOf_sub (U : PolEntry → ℝ) (V : TorEntry → ℝ) (f g : Int → Int → ℝ) (m n : Int) :
    coefOf s U V (fun k l => f k l - g k l) m n = coefOf s U V f m n - coefOf s U V g m n := by
  unfold coefOf
  rw [← Finset.sum_sub_distrib]
  refine Finset.sum_congr rfl fun k _ => ?_
  rw [← Finset.sum_sub_distrib]
  exact Finset.sum_congr rfl fun l _ => by ring

theorem coefOf_table (U : PolEntry → ℝ) (V : TorEntry → ℝ) (f : Int → Int → ℝ) (m n : Int) (m0 : 0 ≤ m) (m1 : m < s.mpol) (n0 : 0 ≤ n) (n1 : n ≤ s.ntor) :
    coefOf s U V f m n = ∑ k ∈ Ico 0 s.nZeta, ∑ l ∈ Ico 0 s.nThetaReduced, f k l * U (pol fastPoloidal s m l) * V (tor fastPoloidal s s.nfp n k) := by
  have g := goodGrid_of_mk hs
  have := g.m2
  have := g.n2
  refine Finset.sum_congr rfl fun k hk => Finset.sum_congr rfl fun l hl => ?_
  rw [Finset.mem_Ico] at hk hl
  rw [pol_eq fastPoloidal (Or.inl rfl) s m l m0 (by omega) hl.1 hl.2, tor_eq fastPoloidal (Or.inl rfl) s s.nfp n k n0 (by omega) hk.1 hk.2]

theorem sizes_eq : s.mpol = mpol ∧ s.ntor = ntor ∧ s.nfp = nfp ∧ s.lasym = lasym := by
  obtain ⟨⟨e1, e2, e3, e4⟩, _⟩ := (Sizes.C07_sizes lasym nfp mpol ntor ntheta nzeta mg ng).2 s hs
  exact ⟨e3, e4, e2, e1⟩

/-- the coefficients of a band-limited even function are its own -/
theorem coefOf_even (cc ss : Int → Int → ℝ) (m n : Int) (m0 : 0 ≤ m) (m1 : m < s.mpol) (n0 : 0 ≤ n) (n1 : n ≤ s.ntor) :
    coefOf s PolEntry.cosmui TorEntry.cosnv (fun k l => productCos s.mpol s.ntor cc ss (thetaGrid s l) (zetaGrid s k)) m n = cc m n ∧
    coefOf s PolEntry.sinmui TorEntry.sinnv (fun k l => productCos s.mpol s.ntor cc ss (thetaGrid s l) (zetaGrid s k)) m n = if m = 0 ∨ n = 0 then 0 else ss m n := by
  obtain ⟨e1, e2, e3, e4⟩ := sizes_eq hs
  subst e1 e2 e3 e4
  obtain ⟨h1, h2⟩ := C12_even fastPoloidal (Or.inl rfl) s.lasym s.nfp s.mpol s.ntor ntheta nzeta mg ng s hs cc ss m n m0 m1 n0 n1
  refine ⟨(coefOf_table hs _ _ _ m n m0 m1 n0 n1).trans h1, ?_⟩
  split_ifs with h
  · unfold coefOf
    refine Finset.sum_eq_zero fun k _ => Finset.sum_eq_zero fun l _ => ?_
    rcases h with rfl | rfl <;> simp [polEntry, torEntry]
  · exact (coefOf_table hs _ _ _ m n m0 m1 n0 n1).trans (h2 (by tauto) (by tauto))

theorem coefOf_odd (sc cs : Int → Int → ℝ) (m n : Int) (m0 : 0 ≤ m) (m1 : m < s.mpol) (n0 : 0 ≤ n) (n1 : n ≤ s.ntor) :
    coefOf s PolEntry.sinmui TorEntry.cosnv (fun k l => productSin s.mpol s.ntor sc cs (thetaGrid s l) (zetaGrid s k)) m n = (if m = 0 then 0 else sc m n) ∧
    coefOf s PolEntry.cosmui TorEntry.sinnv (fun k l => productSin s.mpol s.ntor sc cs (thetaGrid s l) (zetaGrid s k)) m n = if n = 0 then 0 else cs m n := by
  obtain ⟨e1, e2, e3, e4⟩ := sizes_eq hs
  subst e1 e2 e3 e4
  obtain ⟨h1, h2⟩ := C12_odd fastPoloidal (Or.inl rfl) s.lasym s.nfp s.mpol s.ntor ntheta nzeta mg ng s hs sc cs m n m0 m1 n0 n1
  constructor
  · split_ifs with h
    · unfold coefOf
      refine Finset.sum_eq_zero fun k _ => Finset.sum_eq_zero fun l _ => ?_
      subst h; simp [polEntry]
    · exact (coefOf_table hs _ _ _ m n m0 m1 n0 n1).trans (h1 h)
  · split_ifs with h
    · unfold coefOf
      refine Finset.sum_eq_zero fun k _ => Finset.sum_eq_zero fun l _ => ?_
      subst h; simp [torEntry]
    · exact (coefOf_table hs _ _ _ m n m0 m1 n0 n1).trans (h2 h)

theorem scale_prod_ne (m n : Int) : (1 / ((s.nZeta * (s.nThetaReduced - 1) : Int) : ℝ)) * scale m * scale n ≠ 0 :=
  mul_ne_zero (mul_ne_zero (norm_ne hs) (scale_ne m)) (scale_ne n)

/-- the function with the coefficients of `f` is the filtered `f` -/
theorem evenFilter_of (f : Int → Int → ℝ) :
    EvenFilter s f (fun θ φ => productCos s.mpol s.ntor (coefOf s PolEntry.cosmui TorEntry.cosnv f) (coefOf s PolEntry.sinmui TorEntry.sinnv f) θ (s.nfp * φ)) := by
  refine ⟨⟨_, _, fun _ _ => rfl⟩, ?_⟩
  intro m n m0 m1 n0 n1
  set cc := coefOf s PolEntry.cosmui TorEntry.cosnv f
  set ss := coefOf s PolEntry.sinmui TorEntry.sinnv f with hss
  obtain ⟨a1, a2⟩ := coefOf_even hs cc ss m n m0 m1 n0 n1
  have z1 := coefOf_sub hs PolEntry.cosmui TorEntry.cosnv f (fun k l => productCos s.mpol s.ntor cc ss (thetaGrid s l) (zetaGrid s k)) m n
  have z2 := coefOf_sub hs PolEntry.sinmui TorEntry.sinnv f (fun k l => productCos s.mpol s.ntor cc ss (thetaGrid s l) (zetaGrid s k)) m n
  have hz : ss m n = if m = 0 ∨ n = 0 then 0 else ss m n := by
    split_ifs with h
    · rw [hss]; unfold coefOf
      refine Finset.sum_eq_zero fun k _ => Finset.sum_eq_zero fun l _ => ?_
      rcases h with rfl | rfl <;> simp [polEntry, torEntry]
    · rfl
  rw [a1, sub_self, sum_cosmui hs _ (fun k => Real.cos (n * zetaGrid s k)) n (fun k => rfl)] at z1
  rw [a2, ← hz, sub_self, sum_sinmui hs _ (fun k => Real.sin (n * zetaGrid s k)) n (fun k => rfl)] at z2
  simp only [nfp_phi hs]
  exact ⟨(mul_eq_zero.1 z1).resolve_left (scale_prod_ne hs m n), (mul_eq_zero.1 z2).resolve_left (scale_prod_ne hs m n)⟩

theorem oddFilter_of (f : Int → Int → ℝ) :
    OddFilter s f (fun θ φ => productSin s.mpol s.ntor (coefOf s PolEntry.sinmui TorEntry.cosnv f) (coefOf s PolEntry.cosmui TorEntry.sinnv f) θ (s.nfp * φ)) := by
  refine ⟨⟨_, _, fun _ _ => rfl⟩, ?_⟩
  intro m n m0 m1 n0 n1
  set sc := coefOf s PolEntry.sinmui TorEntry.cosnv f with hsc
  set cs := coefOf s PolEntry.cosmui TorEntry.sinnv f with hcs
  obtain ⟨a1, a2⟩ := coefOf_odd hs sc cs m n m0 m1 n0 n1
  have z1 := coefOf_sub hs PolEntry.sinmui TorEntry.cosnv f (fun k l => productSin s.mpol s.ntor sc cs (thetaGrid s l) (zetaGrid s k)) m n
  have z2 := coefOf_sub hs PolEntry.cosmui TorEntry.sinnv f (fun k l => productSin s.mpol s.ntor sc cs (thetaGrid s l) (zetaGrid s k)) m n
  have h1 : sc m n = if m = 0 then 0 else sc m n := by
    split_ifs with h
    · rw [hsc]; unfold coefOf
      refine Finset.sum_eq_zero fun k _ => Finset.sum_eq_zero fun l _ => ?_
      subst h; simp [polEntry]
    · rfl
  have h2 : cs m n = if n = 0 then 0 else cs m n := by
    split_ifs with h
    · rw [hcs]; unfold coefOf
      refine Finset.sum_eq_zero fun k _ => Finset.sum_eq_zero fun l _ => ?_
      subst h; simp [torEntry]
    · rfl
  rw [a1, ← h1, sub_self, sum_sinmui hs _ (fun k => Real.cos (n * zetaGrid s k)) n (fun k => rfl)] at z1
  rw [a2, ← h2, sub_self, sum_cosmui hs _ (fun k => Real.sin (n * zetaGrid s k)) n (fun k => rfl)] at z2
  simp only [nfp_phi hs]
  exact ⟨(mul_eq_zero.1 z1).resolve_left (scale_prod_ne hs m n), (mul_eq_zero.1 z2).resolve_left (scale_prod_ne hs m n)⟩

/-- a filter is determined by its grid values, and leaves functions within the band unchanged -/
theorem evenFilter_exact (f : Int → Int → ℝ) (F : ℝ → ℝ → ℝ) (h : EvenFilter s f F) (cc ss : Int → Int → ℝ)
    (hf : ∀ k l, 0 ≤ k → k < s.nZeta → 0 ≤ l → l < s.nThetaReduced → f k l = productCos s.mpol s.ntor cc ss (thetaGrid s l) (zetaGrid s k)) (θ φ : ℝ) :
    F θ φ = productCos s.mpol s.ntor cc ss θ (s.nfp * φ) := by
  obtain ⟨⟨dd, ee, hF⟩, ho⟩ := h
  rw [hF]
  unfold productCos
  refine Finset.sum_congr rfl fun m hm => Finset.sum_congr rfl fun n hn => ?_
  rw [Finset.mem_Ico] at hm hn
  obtain ⟨o1, o2⟩ := ho m n hm.1 hm.2 hn.1 (by omega)
  obtain ⟨a1, a2⟩ := coefOf_even hs cc ss m n hm.1 hm.2 hn.1 (by omega)
  obtain ⟨b1, b2⟩ := coefOf_even hs dd ee m n hm.1 hm.2 hn.1 (by omega)
  have z1 := coefOf_sub hs PolEntry.cosmui TorEntry.cosnv (fun k l => productCos s.mpol s.ntor cc ss (thetaGrid s l) (zetaGrid s k)) (fun k l => productCos s.mpol s.ntor dd ee (thetaGrid s l) (zetaGrid s k)) m n
  have z2 := coefOf_sub hs PolEntry.sinmui TorEntry.sinnv (fun k l => productCos s.mpol s.ntor cc ss (thetaGrid s l) (zetaGrid s k)) (fun k l => productCos s.mpol s.ntor dd ee (thetaGrid s l) (zetaGrid s k)) m n
  rw [a1, b1, sum_cosmui hs _ (fun k => Real.cos (n * zetaGrid s k)) n (fun k => rfl)] at z1
  rw [a2, b2, sum_sinmui hs _ (fun k => Real.sin (n * zetaGrid s k)) n (fun k => rfl)] at z2
  have q (w : Int → Int → ℝ) : ∑ k ∈ Ico 0 s.nZeta, ∑ l ∈ Ico 0 s.nThetaReduced, endWeight s l * (f k l - F (thetaGrid s l) (phiGrid s k)) * w k l =
      ∑ k ∈ Ico 0 s.nZeta, ∑ l ∈ Ico 0 s.nThetaReduced, endWeight s l *
        (productCos s.mpol s.ntor cc ss (thetaGrid s l) (zetaGrid s k) - productCos s.mpol s.ntor dd ee (thetaGrid s l) (zetaGrid s k)) * w k l := by
    refine Finset.sum_congr rfl fun k hk => Finset.sum_congr rfl fun l hl => ?_
    rw [Finset.mem_Ico] at hk hl
    rw [hf k l hk.1 hk.2 hl.1 hl.2, hF, nfp_phi hs]
  rw [← q (fun k l => Real.cos (m * thetaGrid s l) * Real.cos (n * zetaGrid s k)), o1, mul_zero] at z1
  rw [← q (fun k l => Real.sin (m * thetaGrid s l) * Real.sin (n * zetaGrid s k)), o2, mul_zero] at z2
  have e1 : dd m n = cc m n := by linarith
  rw [e1]
  by_cases h : m = 0 ∨ n = 0
  · rcases h with rfl | rfl <;> simp
  · rw [if_neg h, if_neg h] at z2
    rw [show ee m n = ss m n by linarith]

theorem oddFilter_exact (f : Int → Int → ℝ) (F : ℝ → ℝ → ℝ) (h : OddFilter s f F) (sc cs : Int → Int → ℝ)
    (hf : ∀ k l, 0 ≤ k → k < s.nZeta → 0 ≤ l → l < s.nThetaReduced → f k l = productSin s.mpol s.ntor sc cs (thetaGrid s l) (zetaGrid s k)) (θ φ : ℝ) :
    F θ φ = productSin s.mpol s.ntor sc cs θ (s.nfp * φ) := by
  obtain ⟨⟨dd, ee, hF⟩, ho⟩ := h
  rw [hF]
  unfold productSin
  refine Finset.sum_congr rfl fun m hm => Finset.sum_congr rfl fun n hn => ?_
  rw [Finset.mem_Ico] at hm hn
  obtain ⟨o1, o2⟩ := ho m n hm.1 hm.2 hn.1 (by omega)
  obtain ⟨a1, a2⟩ := coefOf_odd hs sc cs m n hm.1 hm.2 hn.1 (by omega)
  obtain ⟨b1, b2⟩ := coefOf_odd hs dd ee m n hm.1 hm.2 hn.1 (by omega)
  have z1 := coefOf_sub hs PolEntry.sinmui TorEntry.cosnv (fun k l => productSin s.mpol s.ntor sc cs (thetaGrid s l) (zetaGrid s k)) (fun k l => productSin s.mpol s.ntor dd ee (thetaGrid s l) (zetaGrid s k)) m n
  have z2 := coefOf_sub hs PolEntry.cosmui TorEntry.sinnv (fun k l => productSin s.mpol s.ntor sc cs (thetaGrid s l) (zetaGrid s k)) (fun k l => productSin s.mpol s.ntor dd ee (thetaGrid s l) (zetaGrid s k)) m n
  rw [a1, b1, sum_sinmui hs _ (fun k => Real.cos (n * zetaGrid s k)) n (fun k => rfl)] at z1
  rw [a2, b2, sum_cosmui hs _ (fun k => Real.sin (n * zetaGrid s k)) n (fun k => rfl)] at z2
  have q (w : Int → Int → ℝ) : ∑ k ∈ Ico 0 s.nZeta, ∑ l ∈ Ico 0 s.nThetaReduced, endWeight s l * (f k l - F (thetaGrid s l) (phiGrid s k)) * w k l =
      ∑ k ∈ Ico 0 s.nZeta, ∑ l ∈ Ico 0 s.nThetaReduced, endWeight s l *
        (productSin s.mpol s.ntor sc cs (thetaGrid s l) (zetaGrid s k) - productSin s.mpol s.ntor dd ee (thetaGrid s l) (zetaGrid s k)) * w k l := by
    refine Finset.sum_congr rfl fun k hk => Finset.sum_congr rfl fun l hl => ?_
    rw [Finset.mem_Ico] at hk hl
    rw [hf k l hk.1 hk.2 hl.1 hl.2, hF, nfp_phi hs]
  rw [← q (fun k l => Real.sin (m * thetaGrid s l) * Real.cos (n * zetaGrid s k)), o1, mul_zero] at z1
  rw [← q (fun k l => Real.cos (m * thetaGrid s l) * Real.sin (n * zetaGrid s k)), o2, mul_zero] at z2
  have e1 : (if m = 0 then 0 else dd m n) = (if m = 0 then 0 else sc m n) := by linarith
  have e2 : (if n = 0 then 0 else ee m n) = (if n = 0 then 0 else cs m n) := by linarith
  congr 1
  · by_cases hm : m = 0
    · subst hm; simp
    · rw [if_neg hm, if_neg hm] at e1; rw [e1]
  · by_cases hn : n = 0
    · subst hn; simp
    · rw [if_neg hn, if_neg hn] at e2; rw [e2]

end

/-! ## derivatives and reflection of functions in product form -/

open Transform in
theorem productCos_dθ (M N : Int) (cc ss : Int → Int → ℝ) (θ ζ : ℝ) : HasDerivAt (fun θ => productCos M N cc ss θ ζ)
    (∑ m ∈ Ico 0 M, ∑ n ∈ Ico 0 (N + 1), (cc m n * (-m * Real.sin (m * θ) * scale m) * (Real.cos (n * ζ) * scale n) +
      ss m n * (m * Real.cos (m * θ) * scale m) * (Real.sin (n * ζ) * scale n))) θ := by
  unfold productCos
  refine HasDerivAt.fun_sum fun m _ => HasDerivAt.fun_sum fun n _ => ?_
  exact ((((cos_deriv m θ).mul_const (scale m)).const_mul (cc m n)).mul_const _).fun_add ((((sin_deriv m θ).mul_const (scale m)).const_mul (ss m n)).mul_const _)

open Transform in
theorem productSin_dθ (M N : Int) (sc cs : Int → Int → ℝ) (θ ζ : ℝ) : HasDerivAt (fun θ => productSin M N sc cs θ ζ)
    (∑ m ∈ Ico 0 M, ∑ n ∈ Ico 0 (N + 1), (sc m n * (m * Real.cos (m * θ) * scale m) * (Real.cos (n * ζ) * scale n) +
      cs m n * (-m * Real.sin (m * θ) * scale m) * (Real.sin (n * ζ) * scale n))) θ := by
  unfold productSin
  refine HasDerivAt.fun_sum fun m _ => HasDerivAt.fun_sum fun n _ => ?_
  exact ((((sin_deriv m θ).mul_const (scale m)).const_mul (sc m n)).mul_const _).fun_add ((((cos_deriv m θ).mul_const (scale m)).const_mul (cs m n)).mul_const _)

open Transform in
theorem productCos_dφ (M N : Int) (cc ss : Int → Int → ℝ) (nfp : Int) (θ φ : ℝ) : HasDerivAt (fun φ => productCos M N cc ss θ (nfp * φ))
    (∑ m ∈ Ico 0 M, ∑ n ∈ Ico 0 (N + 1), (cc m n * (Real.cos (m * θ) * scale m) * (-(n * nfp) * Real.sin (n * (nfp * φ)) * scale n) +
      ss m n * (Real.sin (m * θ) * scale m) * (n * nfp * Real.cos (n * (nfp * φ)) * scale n))) φ := by
  unfold productCos
  refine HasDerivAt.fun_sum fun m _ => HasDerivAt.fun_sum fun n _ => ?_
  have c := ((cos_deriv (n * nfp) φ).mul_const (scale n)).const_mul (cc m n * (Real.cos (m * θ) * scale m))
  have d := ((sin_deriv (n * nfp) φ).mul_const (scale n)).const_mul (ss m n * (Real.sin (m * θ) * scale m))
  simp only [mul_assoc (n : ℝ) (nfp : ℝ)] at c d ⊢
  exact c.fun_add d

open Transform in
theorem productSin_dφ (M N : Int) (sc cs : Int → Int → ℝ) (nfp : Int) (θ φ : ℝ) : HasDerivAt (fun φ => productSin M N sc cs θ (nfp * φ))
    (∑ m ∈ Ico 0 M, ∑ n ∈ Ico 0 (N + 1), (sc m n * (Real.sin (m * θ) * scale m) * (-(n * nfp) * Real.sin (n * (nfp * φ)) * scale n) +
      cs m n * (Real.cos (m * θ) * scale m) * (n * nfp * Real.cos (n * (nfp * φ)) * scale n))) φ := by
  unfold productSin
  refine HasDerivAt.fun_sum fun m _ => HasDerivAt.fun_sum fun n _ => ?_
  have c := ((cos_deriv (n * nfp) φ).mul_const (scale n)).const_mul (sc m n * (Real.sin (m * θ) * scale m))
  have d := ((sin_deriv (n * nfp) φ).mul_const (scale n)).const_mul (cs m n * (Real.cos (m * θ) * scale m))
  simp only [mul_assoc (n : ℝ) (nfp : ℝ)] at c d ⊢
  exact c.fun_add d

theorem cos_refl (m a : Int) (θ : ℝ) : Real.cos (m * (a * (2 * Real.pi) - θ)) = Real.cos (m * θ) := by
  rw [show (m : ℝ) * (a * (2 * Real.pi) - θ) = ((m * a : Int) : ℝ) * (2 * Real.pi) - m * θ by push_cast; ring, Real.cos_int_mul_two_pi_sub]
theorem sin_refl (m a : Int) (θ : ℝ) : Real.sin (m * (a * (2 * Real.pi) - θ)) = -Real.sin (m * θ) := by
  rw [show (m : ℝ) * (a * (2 * Real.pi) - θ) = ((m * a : Int) : ℝ) * (2 * Real.pi) - m * θ by push_cast; ring, Real.sin_int_mul_two_pi_sub]

theorem productCos_refl (M N : Int) (cc ss : Int → Int → ℝ) (a b : Int) (θ ζ : ℝ) :
    productCos M N cc ss (a * (2 * Real.pi) - θ) (b * (2 * Real.pi) - ζ) = productCos M N cc ss θ ζ := by
  unfold productCos
  refine Finset.sum_congr rfl fun m _ => Finset.sum_congr rfl fun n _ => ?_
  rw [cos_refl, cos_refl, sin_refl, sin_refl]; ring
theorem productSin_refl (M N : Int) (sc cs : Int → Int → ℝ) (a b : Int) (θ ζ : ℝ) :
    productSin M N sc cs (a * (2 * Real.pi) - θ) (b * (2 * Real.pi) - ζ) = -productSin M N sc cs θ ζ := by
  unfold productSin
  rw [← Finset.sum_neg_distrib]
  refine Finset.sum_congr rfl fun m _ => ?_
  rw [← Finset.sum_neg_distrib]
  refine Finset.sum_congr rfl fun n _ => ?_
  rw [cos_refl, cos_refl, sin_refl, sin_refl]; ring

end Verif.Output
