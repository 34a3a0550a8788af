import Verif.Nestor.GreenSpec

/-! # Properties of the regularized integrals -/
namespace Verif.Nestor
open Verif Finset Fourier

/-- the kernels subtracted at a pair of points: `f` is the first, `e` the second fundamental form at the source point -/
noncomputable def nearMono (f : ℝ → ℝ → ℝ) (du dv : ℝ) : ℝ := 1 / √(f (halfTan du) (halfTan dv))
noncomputable def nearDip (f e : ℝ → ℝ → ℝ) (du dv : ℝ) : ℝ := nearMono f du dv * (e (halfTan du) (halfTan dv) / f (halfTan du) (halfTan dv))

namespace GCtx
variable (c : GCtx)

/-- angles of a grid point -/
noncomputable def theta (kl : Int) : ℝ := 2 * Real.pi * (kl.tdiv c.s.nZeta : Int) / c.s.nThetaEven
noncomputable def zeta (kl : Int) : ℝ := 2 * Real.pi * (kl.tmod c.s.nZeta : Int) / c.s.nZeta
/-- fundamental forms at a source point -/
def firstForm (klp : Int) (a b : ℝ) : ℝ :=
  c.sg.guu (klp - c.ztMin) * a ^ 2 + c.sg.guv (klp - c.ztMin) * (a * b) + c.sg.gvv (klp - c.ztMin) * b ^ 2
def secondForm (klp : Int) (a b : ℝ) : ℝ :=
  c.sg.auu (klp - c.ztMin) * a ^ 2 + c.sg.auv (klp - c.ztMin) * (a * b) + c.sg.avv (klp - c.ztMin) * b ^ 2

theorem sub1_eq (klp : Int) {a b du dv : ℝ} (ha : a = halfTan du) (hb : b = halfTan dv) : c.sub1 klp a b = nearMono (c.firstForm klp) du dv := by
  unfold sub1 nearMono ga1Form form firstForm
  rw [ha, hb]
  congr 2
  ring

theorem sub2_eq (klp : Int) {a b du dv : ℝ} (ha : a = halfTan du) (hb : b = halfTan dv) :
    c.sub2 klp a b = nearDip (c.firstForm klp) (c.secondForm klp) du dv := by
  unfold sub2
  rw [c.sub1_eq klp ha hb]
  unfold nearDip ga2Form ga1Form form firstForm secondForm
  rw [ha, hb]
  congr 2 <;> ring

theorem tu_eq {klp kl : Int} (ht : 0 < c.s.nThetaEven) (ht' : c.s.nThetaEven ≤ 10 ^ 15) (hz : 0 < c.s.nZeta) (g0 : 0 ≤ klp)
    (g1 : klp < c.thetaByZeta) (k0 : 0 ≤ kl) : c.tu klp kl = halfTan (c.theta kl - c.theta klp) := by
  unfold tu tanu theta
  refine tanEntry_diff ht ht' (Int.tdiv_nonneg k0 hz.le) ?_
  rw [Int.tdiv_eq_ediv_of_nonneg g0]
  exact Int.ediv_lt_of_lt_mul hz g1

theorem tv_eq {klp kl : Int} (hz : 0 < c.s.nZeta) (hz' : c.s.nZeta ≤ 10 ^ 15) (k0 : 0 ≤ kl) :
    c.tv klp kl = halfTan (c.zeta kl - c.zeta klp) := by
  unfold tv tanv zeta
  exact tanEntry_diff hz hz' (Int.tmod_nonneg _ k0) (Int.tmod_lt_of_pos _ hz)

/-- **C75.** For a surface with points `X` and normal vectors `N`: `RegularizedIntegrals::update` leaves in `greenp`, for every source point of
the thread and every point of the surface, `2π/nfp` times the sum over the field periods of the dipole kernel minus the kernel subtracted, where
the pair of a point with itself is left out, and in `gstore` the same of the monopole kernel summed over the source points with the normal
field and the integration weight. -/
theorem C75_greenp {X N : Int → V3} (d : c.Describes X N) (hz : 1 < c.s.nZeta) (hz' : c.s.nZeta ≤ 10 ^ 15)
    (ht : 0 < c.s.nThetaEven) (ht' : c.s.nThetaEven ≤ 10 ^ 15) (hf : 0 < c.s.nfp) (h0 : 0 ≤ c.ztMin) (h1 : c.ztMax ≤ c.thetaByZeta)
    (hc : ∀ p, 0 ≤ p → p < c.s.nfp → c.sg.cos_per p = Real.cos (2 * Real.pi * p / c.s.nfp))
    (hs : ∀ p, 0 ≤ p → p < c.s.nfp → c.sg.sin_per p = Real.sin (2 * Real.pi * p / c.s.nfp)) :
    (∀ klp kl, c.ztMin ≤ klp → klp < c.ztMax → 0 ≤ kl → kl < c.thetaByZeta →
      c.update .greenp ((klp - c.ztMin) * c.thetaByZeta + kl) = 2 * Real.pi / c.s.nfp * (
        (∑ p ∈ Ico 0 c.s.nfp, if p = 0 ∧ kl = klp then 0 else
          dipole (X kl) ((X klp).rot (2 * Real.pi * p / c.s.nfp)) ((N klp).rot (2 * Real.pi * p / c.s.nfp)))
        - if kl = klp then 0 else nearDip (c.firstForm klp) (c.secondForm klp) (c.theta kl - c.theta klp) (c.zeta kl - c.zeta klp))) ∧
    (∀ kl, 0 ≤ kl → kl < c.thetaByZeta →
      c.update .gstore kl = ∑ klp ∈ Ico c.ztMin c.ztMax, c.bDotN (klp - c.ztMin) * Sizes.wInt c.s (klp.tdiv c.s.nZeta) *
        (2 * Real.pi / c.s.nfp * ((∑ p ∈ Ico 0 c.s.nfp, if p = 0 ∧ kl = klp then 0 else monopole (X kl) ((X klp).rot (2 * Real.pi * p / c.s.nfp)))
          - if kl = klp then 0 else nearMono (c.firstForm klp) (c.theta kl - c.theta klp) (c.zeta kl - c.zeta klp)))) := by
  have hz0 : 0 < c.s.nZeta := by omega
  have hr := c.read c.totalK c.totalG (2 * Real.pi / c.s.nfp) c.bex
  rw [← c.update_sum hz0 (by omega) h0 h1] at hr
  have split (F : Int → ℝ) : ∑ p ∈ Ico 0 c.s.nfp, F p = F 0 + ∑ p ∈ Ico 1 c.s.nfp, F p := by
    have e : Ico 0 c.s.nfp = insert 0 (Ico 1 c.s.nfp) := by ext x; simp only [mem_Ico, mem_insert]; omega
    rw [e, sum_insert (by simp)]
  constructor
  · intro klp kl a1 a2 a3 a4
    rw [hr.1 klp kl a1 a2 a3 a4]
    congr 1
    unfold totalK
    rw [split]
    have e : ∀ p ∈ Ico 1 c.s.nfp, c.kern (c.sg.cos_per p) (c.sg.sin_per p) klp kl = if p = 0 ∧ kl = klp then 0 else
        dipole (X kl) ((X klp).rot (2 * Real.pi * p / c.s.nfp)) ((N klp).rot (2 * Real.pi * p / c.s.nfp)) := by
      intro p hp
      obtain ⟨p1, p2⟩ := mem_Ico.1 hp
      rw [hc p (by omega) p2, hs p (by omega) p2, if_neg (by omega), kern_eq d a1 a2 (by omega) (by omega) a3 a4]
    rw [sum_congr rfl e]
    by_cases hk : kl = klp
    · simp [hk]
    · rw [if_neg hk, if_neg hk, if_neg (by tauto), hc 0 le_rfl hf, hs 0 le_rfl hf, kern_eq d a1 a2 (by omega) (by omega) a3 a4,
        c.sub2_eq klp (c.tu_eq ht ht' hz0 (by omega) (by omega) a3) (c.tv_eq hz0 hz' a3)]
      ring
  · intro kl a3 a4
    rw [hr.2 kl a3 a4]
    refine sum_congr rfl fun klp hp => ?_
    obtain ⟨a1, a2⟩ := mem_Ico.1 hp
    unfold bex
    congr 2
    unfold totalG
    rw [split]
    have e : ∀ p ∈ Ico 1 c.s.nfp, c.green (c.sg.cos_per p) (c.sg.sin_per p) klp kl = if p = 0 ∧ kl = klp then 0 else
        monopole (X kl) ((X klp).rot (2 * Real.pi * p / c.s.nfp)) := by
      intro p hp
      obtain ⟨p1, p2⟩ := mem_Ico.1 hp
      rw [hc p (by omega) p2, hs p (by omega) p2, if_neg (by omega), green_eq d (by omega) (by omega) a3 a4]
    rw [sum_congr rfl e]
    by_cases hk : kl = klp
    · simp [hk]
    · rw [if_neg hk, if_neg hk, if_neg (by tauto), hc 0 le_rfl hf, hs 0 le_rfl hf, green_eq d (by omega) (by omega) a3 a4,
        c.sub1_eq klp (c.tu_eq ht ht' hz0 (by omega) (by omega) a3) (c.tv_eq hz0 hz' a3)]
      ring

/-- **C75** for an axisymmetric surface: the same with 64 images of the source point, where the subtracted kernel is evaluated at every image -/
theorem C75_axisymmetric {X N : Int → V3} (d : c.Describes X N) (hz : c.s.nZeta = 1)
    (ht : 0 < c.s.nThetaEven) (ht' : c.s.nThetaEven ≤ 10 ^ 15) (h0 : 0 ≤ c.ztMin) (h1 : c.ztMax ≤ c.thetaByZeta) :
    (∀ klp kl, c.ztMin ≤ klp → klp < c.ztMax → 0 ≤ kl → kl < c.thetaByZeta →
      c.update .greenp ((klp - c.ztMin) * c.thetaByZeta + kl) = 2 * Real.pi / 64 *
        ∑ p ∈ Ico (0 : Int) 64, if p = 0 ∧ kl = klp then 0 else
          dipole (X kl) ((X klp).rot (2 * Real.pi * p / 64)) ((N klp).rot (2 * Real.pi * p / 64))
            - nearDip (c.firstForm klp) (c.secondForm klp) (c.theta kl - c.theta klp) (2 * Real.pi * p / 64)) ∧
    (∀ kl, 0 ≤ kl → kl < c.thetaByZeta →
      c.update .gstore kl = ∑ klp ∈ Ico c.ztMin c.ztMax, c.bDotN (klp - c.ztMin) * Sizes.wInt c.s klp *
        (2 * Real.pi / 64 * ∑ p ∈ Ico (0 : Int) 64, if p = 0 ∧ kl = klp then 0 else
          monopole (X kl) ((X klp).rot (2 * Real.pi * p / 64))
            - nearMono (c.firstForm klp) (c.theta kl - c.theta klp) (2 * Real.pi * p / 64))) := by
  have hr := c.read c.axiK c.axiG (2 * Real.pi / images) (fun klp => c.bDotN (klp - c.ztMin) * Sizes.wInt c.s klp)
  rw [← c.updateAxi_sum hz] at hr
  have i64 : ((images : Int) : ℝ) = 64 := by unfold images; norm_num
  have ht1 : c.thetaByZeta = c.s.nThetaEven := by unfold thetaByZeta; rw [hz, mul_one]
  have tu1 (klp kl : Int) (g1 : klp < c.thetaByZeta) (k0 : 0 ≤ kl) :
      c.tanu ((kl - klp + c.s.nThetaEven).tmod c.s.nThetaEven) = halfTan (c.theta kl - c.theta klp) := by
    unfold tanu theta
    rw [hz, Int.tdiv_one, Int.tdiv_one]
    exact tanEntry_diff ht ht' k0 (by omega)
  have tv1 (p : Int) (p1 : 0 ≤ p) (p2 : p < 64) : tanvPer p = halfTan (2 * Real.pi * p / 64) := by
    unfold tanvPer
    have := tanEntry_eq (N := 64) (l := p) (by norm_num) (by norm_num) p1 p2
    rw [i64, mul_div_right_comm]
    exact_mod_cast this
  have ang (p : Int) : 2 * Real.pi / (images : Int) * p = 2 * Real.pi * p / 64 := by rw [i64]; ring
  constructor
  · intro klp kl a1 a2 a3 a4
    rw [hr.1 klp kl a1 a2 a3 a4, i64]
    congr 1
    unfold axiK
    refine sum_congr rfl fun p hp => ?_
    obtain ⟨p1, p2⟩ := mem_Ico.1 hp
    rw [ang, kern_eq d a1 a2 (by omega) (by omega) a3 a4, c.sub2_eq klp (tu1 klp kl (by omega) a3) (tv1 p p1 p2)]
  · intro kl a3 a4
    rw [hr.2 kl a3 a4, i64]
    refine sum_congr rfl fun klp hp => ?_
    obtain ⟨a1, a2⟩ := mem_Ico.1 hp
    congr 2
    unfold axiG
    refine sum_congr rfl fun p hp => ?_
    obtain ⟨p1, p2⟩ := mem_Ico.1 hp
    rw [ang, green_eq d (by omega) (by omega) a3 a4, c.sub1_eq klp (tu1 klp kl (by omega) a3) (tv1 p p1 p2)]

/-- away from opposite points the subtracted kernels are those that `SingularIntegrals` integrates (`ga1`, `ga2` of `Subtracted.lean`) -/
theorem C75_subtracted (f : Forms) (u v : ℝ) (hu : Real.cos (u / 2) ≠ 0) (hv : Real.cos (v / 2) ≠ 0) :
    nearMono (fun x y => f.a * x ^ 2 + f.b2 * (x * y) + f.c * y ^ 2) u v = ga1 f u v ∧
    nearDip (fun x y => f.a * x ^ 2 + f.b2 * (x * y) + f.c * y ^ 2) (fun x y => f.A * x ^ 2 + f.B2 * (x * y) + f.C * y ^ 2) u v
      = ga1 f u v * ga2 f u v := by
  unfold nearDip nearMono ga1 ga2
  rw [← form_eq_tanForm f.a f.b2 f.c u v hu hv, ← form_eq_tanForm f.A f.B2 f.C u v hu hv]
  unfold form
  constructor
  · congr 2; ring
  · congr 2
    · congr 2; ring
    · ring
    · ring

/-- a surface of 2 field periods, of which a thread has two source points, with points `(1 + kl, 0, kl)` and normal
vectors `(1, 2, 3)` -/
noncomputable def sampleSurf : Surf where
  rcosuv kl := 1 + kl
  rsinuv _ := 0
  r1b kl := 1 + kl
  z1b kl := kl
  rzb2 kl := (1 + kl) ^ 2 + kl ^ 2
  cos_per p := Real.cos (2 * Real.pi * p / 2)
  sin_per p := Real.sin (2 * Real.pi * p / 2)
  snr _ := 1
  snv _ := 2
  snz _ := 3
  drv i := -((1 + (i + 1)) + 3 * (i + 1))
  guu _ := 1
  guv _ := 0
  gvv _ := 1
  auu _ := 1
  auv _ := 0
  avv _ := 1

/-- C75: the hypotheses of both theorems hold for it -/
example (ntor : Int) (hn : ntor = 0 ∨ ntor = 1) : ∃ c : GCtx, c.Describes (fun kl => ⟨1 + kl, 0, kl⟩) (fun _ => ⟨1, 2, 3⟩) ∧
    c.s.nZeta = (if ntor = 0 then 1 else 6) ∧ c.s.nThetaEven = 10 ∧ c.s.nfp = 2 ∧ c.ztMin = 1 ∧ c.ztMax = 3 ∧ c.ztMax ≤ c.thetaByZeta ∧
    (∀ p, c.sg.cos_per p = Real.cos (2 * Real.pi * p / c.s.nfp)) ∧ (∀ p, c.sg.sin_per p = Real.sin (2 * Real.pi * p / c.s.nfp)) := by
  obtain ⟨s, hs⟩ : ∃ s, Sizes.mk true 2 2 ntor 0 0 0 0 = .ok s := by rcases hn with rfl | rfl <;> exact ⟨_, rfl⟩
  have hs' : s.nZeta = (if ntor = 0 then 1 else 6) ∧ s.nThetaEven = 10 ∧ s.nfp = 2 := by
    rcases hn with rfl | rfl <;> (cases hs; decide)
  obtain ⟨e1, e2, e3⟩ := hs'
  have hr (i : Int) (h : 1 ≤ i) : (1 + i : ℝ) ≠ 0 := by
    have : (1 : ℝ) ≤ i := by exact_mod_cast h
    positivity
  refine ⟨{ s := s, ztMin := 1, ztMax := 3, sg := sampleSurf, bDotN := fun _ => 1 },
    ⟨fun _ _ _ => rfl, fun _ _ _ => rfl, fun _ _ _ => rfl, fun i _ _ => ?_, fun i h _ => hr i h, fun i h _ => ?_, fun i h _ => ?_, fun _ _ _ => rfl,
      fun i h _ => ?_⟩, e1, e2, e3, rfl, rfl, ?_, fun p => ?_, fun p => ?_⟩
  · unfold V3.dot sampleSurf; simp only []; ring
  · have := hr i h
    unfold sampleSurf; simp only []; field_simp; ring
  · have := hr i h
    unfold sampleSurf; simp only []; field_simp; ring
  · unfold V3.dot sampleSurf; simp only []; push_cast; ring
  · unfold thetaByZeta; simp only []; rw [e1, e2]; split <;> norm_num
  · unfold sampleSurf; simp only []; rw [e3]; norm_num
  · unfold sampleSurf; simp only []; rw [e3]; norm_num

end GCtx
end Verif.Nestor
