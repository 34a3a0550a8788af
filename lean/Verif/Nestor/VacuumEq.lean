import Verif.Nestor.Segment
import Verif.Nestor.Elements
import Verif.Nestor.PropsD

/-! # Elements of the arrays of `ExternalMagneticField` and `Nestor::update` -/
namespace Verif.Nestor
open Verif Finset Fourier

/-- sum of vectors -/
noncomputable def V3.sum (s : Finset Int) (f : Int → V3) : V3 := ⟨∑ i ∈ s, (f i).x, ∑ i ∈ s, (f i).y, ∑ i ∈ s, (f i).z⟩

theorem V3.rot_rot (α β : ℝ) (a : V3) : (a.rot α).rot β = a.rot (α + β) := by
  unfold V3.rot
  simp only [Real.cos_add, Real.sin_add]
  ext <;> (simp only []; try ring)

theorem V3.rot_add (α : ℝ) (a b : V3) : (a.add b).rot α = (a.rot α).add (b.rot α) := by
  unfold V3.rot V3.add
  ext <;> (simp only []; try ring)

/-- vertex of the polygon which carries the current: the axis at one of equally spaced toroidal angles -/
noncomputable def vertex (s : Sizes.Sizes) (rAxis zAxis : Int → ℝ) (j : Int) : V3 :=
  V3.rot (2 * Real.pi * j / (nvper s * s.nZeta : Int)) ⟨rAxis (j % s.nZeta), 0, zAxis (j % s.nZeta)⟩

theorem nvper_pos {s : Sizes.Sizes} (h : 1 ≤ s.nfp) : 1 ≤ nvper s := by
  unfold nvper
  split <;> omega

theorem vertex_at {s : Sizes.Sizes} (hz : 1 ≤ s.nZeta) (hf : 1 ≤ s.nfp) (rAxis zAxis : Int → ℝ) {p k : Int} (k0 : 0 ≤ k) (k1 : k < s.nZeta) :
    vertex s rAxis zAxis (p * s.nZeta + k) = V3.rot (2 * Real.pi / nvper s * p) ⟨rAxis k * Real.cos (phiOf s k), rAxis k * Real.sin (phiOf s k), zAxis k⟩ := by
  have hv := nvper_pos hf
  have v0 : (nvper s : ℝ) ≠ 0 := by exact_mod_cast (by omega : nvper s ≠ 0)
  have z0 : (s.nZeta : ℝ) ≠ 0 := by exact_mod_cast (by omega : s.nZeta ≠ 0)
  have e : (⟨rAxis k * Real.cos (phiOf s k), rAxis k * Real.sin (phiOf s k), zAxis k⟩ : V3) = V3.rot (phiOf s k) ⟨rAxis k, 0, zAxis k⟩ := by
    unfold V3.rot
    simp
  rw [e, V3.rot_rot]
  unfold vertex
  rw [show (p * s.nZeta + k) % s.nZeta = k by rw [add_comm, Int.add_mul_emod_self_right, Int.emod_eq_of_lt k0 k1]]
  congr 1
  have hφ : phiOf s k = 2 * Real.pi / (nvper s * s.nZeta : Int) * k := by
    unfold phiOf nvper
    split
    · rename_i h
      have : k = 0 := by omega
      subst this
      simp
    · rfl
  rw [hφ]
  push_cast
  field_simp
  ring

theorem axisXYZ_eq {s : Sizes.Sizes} (hz : 1 ≤ s.nZeta) (hf : 1 ≤ s.nfp) (rAxis zAxis : Int → ℝ) {j : Int} (h0 : 0 ≤ j) (h1 : j ≤ s.nZeta * nvper s) :
    axisXYZ s rAxis zAxis j = vertex s rAxis zAxis j := by
  have hv := nvper_pos hf
  unfold axisXYZ
  simp only []
  have first := forRange_inv (lo := 0) (hi := s.nZeta) (by omega)
    (fun k a => upd a k ⟨rAxis k * Real.cos (phiOf s k), rAxis k * Real.sin (phiOf s k), zAxis k⟩) (fun _ => (⟨0, 0, 0⟩ : V3))
    (fun k' a => ∀ k, 0 ≤ k → k < k' → a k = ⟨rAxis k * Real.cos (phiOf s k), rAxis k * Real.sin (phiOf s k), zAxis k⟩) (by intro k; omega) (by
      intro j a _ _ ih k k0 k1
      by_cases h : k = j
      · subst h; rw [upd_same]
      · rw [upd_ne _ _ h]; exact ih k k0 (by omega))
  set a := forRange 0 s.nZeta (fun k a => upd a k (⟨rAxis k * Real.cos (phiOf s k), rAxis k * Real.sin (phiOf s k), zAxis k⟩ : V3)) fun _ => ⟨0, 0, 0⟩ with ha
  have base (k : Int) (k0 : 0 ≤ k) (k1 : k < s.nZeta) : vertex s rAxis zAxis k = ⟨rAxis k * Real.cos (phiOf s k), rAxis k * Real.sin (phiOf s k), zAxis k⟩ := by
    have := vertex_at hz hf rAxis zAxis (p := 0) k0 k1
    rw [zero_mul, zero_add] at this
    rw [this]
    unfold V3.rot
    simp
  have all := forRange_inv (lo := 1) (hi := nvper s) hv
    (fun p a => forRange 0 s.nZeta (fun k a => upd a (p * s.nZeta + k)
      ⟨Real.cos (2 * Real.pi / nvper s * p) * (a k).x - Real.sin (2 * Real.pi / nvper s * p) * (a k).y,
       Real.sin (2 * Real.pi / nvper s * p) * (a k).x + Real.cos (2 * Real.pi / nvper s * p) * (a k).y, zAxis k⟩) a) a
    (fun p a => ∀ j, 0 ≤ j → j < p * s.nZeta → a j = vertex s rAxis zAxis j)
    (by intro j j0 j1; rw [one_mul] at j1; rw [first j j0 j1, base j j0 j1]) (by
      intro p a p0 _ ih
      have inner := forRange_inv (lo := 0) (hi := s.nZeta) (by omega)
        (fun k a => upd a (p * s.nZeta + k)
          (⟨Real.cos (2 * Real.pi / nvper s * p) * (a k).x - Real.sin (2 * Real.pi / nvper s * p) * (a k).y,
           Real.sin (2 * Real.pi / nvper s * p) * (a k).x + Real.cos (2 * Real.pi / nvper s * p) * (a k).y, zAxis k⟩ : V3)) a
        (fun k a => ∀ j, 0 ≤ j → j < p * s.nZeta + k → a j = vertex s rAxis zAxis j)
        (by intro j j0 j1; exact ih j j0 (by omega)) (by
          intro k a k0 k1 ih j j0 j1
          by_cases h : j = p * s.nZeta + k
          · subst h
            rw [upd_same, ih k k0 (by nlinarith), base k k0 k1, vertex_at hz hf rAxis zAxis k0 k1]
            unfold V3.rot
            simp only []
            ext <;> (simp only []; try ring)
          · rw [upd_ne _ _ h]; exact ih j j0 (by omega))
      intro j j0 j1
      exact inner j j0 (by linarith [add_mul p 1 s.nZeta]))
  by_cases h : j = s.nZeta * nvper s
  · subst h
    rw [upd_same, all 0 le_rfl (by nlinarith), base 0 le_rfl (by omega)]
    have := vertex_at hz hf rAxis zAxis (p := nvper s) (k := 0) le_rfl (by omega)
    rw [add_zero, mul_comm] at this
    rw [this]
    have v0 : (nvper s : ℝ) ≠ 0 := by exact_mod_cast (by omega : nvper s ≠ 0)
    rw [div_mul_cancel₀ _ v0]
    unfold V3.rot
    simp
  · rw [upd_ne _ _ h]
    exact all j h0 (by rw [mul_comm]; omega)

theorem axisField_eq {s : Sizes.Sizes} (hz : 1 ≤ s.nZeta) (hf : 1 ≤ s.nfp) (rAxis zAxis : Int → ℝ) (current : ℝ) (P : V3) :
    axisField s (axisXYZ s rAxis zAxis) current P
      = V3.sum (Ico 0 (s.nZeta * nvper s)) fun j => segmentField current (vertex s rAxis zAxis j) (vertex s rAxis zAxis (j + 1)) P := by
  have hv := nvper_pos hf
  have h0 : 0 ≤ s.nZeta * nvper s := by nlinarith
  unfold axisField
  have := forRange_inv h0 (fun i (b : V3) => b.add (segmentField current (axisXYZ s rAxis zAxis i) (axisXYZ s rAxis zAxis (i + 1)) P)) ⟨0, 0, 0⟩
    (fun m b => b = V3.sum (Ico 0 m) fun j => segmentField current (vertex s rAxis zAxis j) (vertex s rAxis zAxis (j + 1)) P)
    (by unfold V3.sum; simp) (by
      intro j b j0 j1 ih
      simp only [ih]
      rw [axisXYZ_eq hz hf rAxis zAxis j0 (by omega), axisXYZ_eq hz hf rAxis zAxis (show 0 ≤ j + 1 by omega) (by omega)]
      unfold V3.add V3.sum
      simp only [sum_Ico_int_succ j0])
  exact this

namespace SCtx
variable (c : SCtx)

/-- the potential of the vacuum field with the coefficients `[potsin; potcos]` -/
noncomputable def Phi (mf nf : Int) (bvec : Int → ℝ) (θ ζ : ℝ) : ℝ :=
  ∑ n ∈ Ico (-nf) (nf + 1), ∑ m ∈ Ico 0 (mf + 1),
    (bvec ((n + nf) * (mf + 1) + m) * Real.sin (m * θ - n * ζ)
      + if c.s.lasym then bvec ((mf + 1) * (2 * nf + 1) + ((n + nf) * (mf + 1) + m)) * Real.cos (m * θ - n * ζ) else 0)

variable {c}

theorem angles {kl : Int} (h0 : 0 ≤ kl) : c.theta kl = thetaGrid c.s (kl.tdiv c.s.nZeta) ∧ c.zeta kl = zetaGrid c.s (kl.tmod c.s.nZeta) := by
  rw [Int.tdiv_eq_ediv_of_nonneg h0, Int.tmod_eq_emod_of_nonneg h0]
  exact ⟨rfl, rfl⟩

theorem pot_tables (g : c.Good) {mf nf : Int} (m0 : 0 ≤ mf) (m1 : mf ≤ c.s.mnyq2) (n0 : 0 ≤ nf) (n1 : nf ≤ c.s.nnyq2) {kl : Int} (h0 : 0 ≤ kl)
    (h1 : kl < c.s.nThetaEven * c.s.nZeta) {n m : Int} (hn : -nf ≤ n) (hn' : n ≤ nf) (hm : 0 ≤ m) (hm' : m ≤ mf) :
    c.cosPot mf nf kl ((n + nf) * (mf + 1) + m) = Real.cos (m * c.theta kl - n * c.zeta kl) ∧
    c.sinPot mf nf kl ((n + nf) * (mf + 1) + m) = Real.sin (m * c.theta kl - n * c.zeta kl) := by
  obtain ⟨e, a1, a2, a3, a4⟩ := split_point g.grid h0 h1
  have gd : Ctx.Good ⟨c.s, c.s.nfp, nf, mf, 0, 0, true, fun _ => 0, fun _ => 0, fun _ => ⟨⟨0, 0, 0, 0, 0, 0, 0, 0, 0, 0, 0, 0, 0, 0, 0⟩, fun _ => 0, fun _ => 0⟩⟩ :=
    ⟨g.grid, n0, n1, m0, m1, le_rfl, le_rfl, by simp only []; omega⟩
  have hq0 : 0 ≤ (n + nf) * (mf + 1) := mul_nonneg (by omega) (by omega)
  have dv : ((n + nf) * (mf + 1) + m).tdiv (mf + 1) - nf = n := by
    rw [Int.tdiv_eq_ediv_of_nonneg (by omega), add_comm, Int.add_mul_ediv_right _ _ (by omega), Int.ediv_eq_zero_of_lt hm (by omega)]
    ring
  have md : ((n + nf) * (mf + 1) + m).tmod (mf + 1) = m := by
    rw [Int.tmod_eq_emod_of_nonneg (by omega), add_comm, Int.add_mul_emod_self_right, Int.emod_eq_of_lt hm (by omega)]
  obtain ⟨t1, t2⟩ := angles (c := c) h0
  rw [t1, t2]
  rw [← Int.tdiv_eq_ediv_of_nonneg h0] at a1 a2
  rw [← Int.tmod_eq_emod_of_nonneg h0] at a3 a4
  have an : |n| ≤ nf := abs_le.2 ⟨hn, hn'⟩
  have P := Ctx.pol_at gd hm hm' a1 a2
  have T := Ctx.tor_at gd (abs_nonneg n) an a3 a4
  unfold Ctx.cosmu Ctx.sinmu Ctx.sgnmu Ctx.lr at P
  unfold Ctx.cosnv Ctx.sinnv at T
  simp only [] at P T
  have s1 : fillScale (c.s.mnyq2 + 1) m = scale m := fillScale_eq _ _ hm (by omega)
  have s2 : fillScale (c.s.nnyq2 + 1) |n| = scale |n| := fillScale_eq _ _ (abs_nonneg n) (by omega)
  have q1 := Ctx.scale_ne m
  have q2 := Ctx.scale_ne |n|
  have sg : (Int.sign n : ℝ) * Real.sin ((|n| : Int) * zetaGrid c.s (kl.tmod c.s.nZeta)) = Real.sin (n * zetaGrid c.s (kl.tmod c.s.nZeta)) := by
    rcases lt_trichotomy n 0 with h | h | h
    · rw [Int.sign_eq_neg_one_of_neg h, abs_of_neg h]
      rw [Int.cast_neg n, neg_mul (n : ℝ), Real.sin_neg]
      push_cast
      ring
    · subst h; simp
    · rw [Int.sign_eq_one_of_pos h, abs_of_pos h]
      simp
  have cn : Real.cos ((|n| : Int) * zetaGrid c.s (kl.tmod c.s.nZeta)) = Real.cos (n * zetaGrid c.s (kl.tmod c.s.nZeta)) := by
    rcases abs_choice n with h | h
    · rw [h]
    · rw [h]
      push_cast
      rw [neg_mul, Real.cos_neg]
  unfold cosPot sinPot fp ft
  simp only [dv, md, s1, s2]
  rw [P.1, P.2, T.1, T.2, mul_div_cancel_right₀ _ q1, mul_div_cancel_right₀ _ q1, mul_div_cancel_right₀ _ q2, mul_div_cancel_right₀ _ q2, cn, Real.cos_sub, Real.sin_sub, ← sg]
  constructor <;> ring

theorem deriv_Phi_θ (mf nf : Int) (bvec : Int → ℝ) (θ ζ : ℝ) : deriv (fun t => c.Phi mf nf bvec t ζ) θ = ∑ n ∈ Ico (-nf) (nf + 1), ∑ m ∈ Ico 0 (mf + 1),
    (bvec ((n + nf) * (mf + 1) + m) * (m * Real.cos (m * θ - n * ζ))
      + if c.s.lasym then bvec ((mf + 1) * (2 * nf + 1) + ((n + nf) * (mf + 1) + m)) * (-m * Real.sin (m * θ - n * ζ)) else 0) := by
  refine HasDerivAt.deriv ?_
  unfold Phi
  refine HasDerivAt.fun_sum fun n _ => HasDerivAt.fun_sum fun m _ => ?_
  have hp : HasDerivAt (fun t : ℝ => (m : ℝ) * t - n * ζ) m θ := by simpa using ((hasDerivAt_id θ).const_mul (m : ℝ)).sub_const (n * ζ)
  refine HasDerivAt.add ((hp.sin.congr_deriv (mul_comm _ _)).const_mul _) ?_
  split
  · exact (hp.cos.congr_deriv (by ring)).const_mul _
  · exact hasDerivAt_const _ _

theorem deriv_Phi_ζ (mf nf : Int) (bvec : Int → ℝ) (θ ζ : ℝ) : deriv (fun t => c.Phi mf nf bvec θ t) ζ = ∑ n ∈ Ico (-nf) (nf + 1), ∑ m ∈ Ico 0 (mf + 1),
    (bvec ((n + nf) * (mf + 1) + m) * (-n * Real.cos (m * θ - n * ζ))
      + if c.s.lasym then bvec ((mf + 1) * (2 * nf + 1) + ((n + nf) * (mf + 1) + m)) * (n * Real.sin (m * θ - n * ζ)) else 0) := by
  refine HasDerivAt.deriv ?_
  unfold Phi
  refine HasDerivAt.fun_sum fun n _ => HasDerivAt.fun_sum fun m _ => ?_
  have hp : HasDerivAt (fun t : ℝ => (m : ℝ) * θ - n * t) (-n) ζ := by simpa using ((hasDerivAt_id ζ).const_mul (n : ℝ)).const_sub (m * θ)
  refine HasDerivAt.add ((hp.sin.congr_deriv (mul_comm _ _)).const_mul _) ?_
  split
  · exact (hp.cos.congr_deriv (by ring)).const_mul _
  · exact hasDerivAt_const _ _

/-- the loop over the modes -/
theorem potUV_eq (g : c.Good) {mf nf : Int} (m0 : 0 ≤ mf) (m1 : mf ≤ c.s.mnyq2) (n0 : 0 ≤ nf) (n1 : nf ≤ c.s.nnyq2) (bvec : Int → ℝ) {kl : Int} (h0 : 0 ≤ kl)
    (h1 : kl < c.s.nThetaEven * c.s.nZeta) :
    c.potUV mf nf bvec kl = (deriv (fun t => c.Phi mf nf bvec t (c.zeta kl)) (c.theta kl), c.s.nfp * deriv (fun t => c.Phi mf nf bvec (c.theta kl) t) (c.zeta kl)) := by
  set θ := c.theta kl
  set ζ := c.zeta kl
  have dθ := deriv_Phi_θ (c := c) mf nf bvec θ ζ
  have dζ := deriv_Phi_ζ (c := c) mf nf bvec θ ζ
  unfold potUV
  simp only []
  have body : ∀ mn (p : ℝ × ℝ), (if c.s.lasym = true then
        (p.1 + bvec mn * (mn.tmod (mf + 1) : Int) * c.cosPot mf nf kl mn - bvec ((mf + 1) * (2 * nf + 1) + mn) * (mn.tmod (mf + 1) : Int) * c.sinPot mf nf kl mn,
         p.2 + bvec mn * (-((mn.tdiv (mf + 1) - nf : Int) : ℝ) * c.s.nfp) * c.cosPot mf nf kl mn
          - bvec ((mf + 1) * (2 * nf + 1) + mn) * (-((mn.tdiv (mf + 1) - nf : Int) : ℝ) * c.s.nfp) * c.sinPot mf nf kl mn)
      else (p.1 + bvec mn * (mn.tmod (mf + 1) : Int) * c.cosPot mf nf kl mn,
         p.2 + bvec mn * (-((mn.tdiv (mf + 1) - nf : Int) : ℝ) * c.s.nfp) * c.cosPot mf nf kl mn)) =
      p + ((bvec mn * ((mn.tmod (mf + 1) : Int) * c.cosPot mf nf kl mn)
        + if c.s.lasym then bvec ((mf + 1) * (2 * nf + 1) + mn) * (-((mn.tmod (mf + 1) : Int) : ℝ) * c.sinPot mf nf kl mn) else 0),
        c.s.nfp * (bvec mn * (-((mn.tdiv (mf + 1) - nf : Int) : ℝ) * c.cosPot mf nf kl mn)
        + if c.s.lasym then bvec ((mf + 1) * (2 * nf + 1) + mn) * (((mn.tdiv (mf + 1) - nf : Int) : ℝ) * c.sinPot mf nf kl mn) else 0)) := by
    intro mn p
    split
    · ext <;> (simp only [Prod.fst_add, Prod.snd_add]; ring)
    · ext <;> (simp only [Prod.fst_add, Prod.snd_add]; ring)
  simp only [body]
  rw [forRange_add, Prod.mk_zero_zero, zero_add]
  have key (F G : Int → ℝ) (F' G' : Int → Int → ℝ)
      (hF : ∀ n m, -nf ≤ n → n ≤ nf → 0 ≤ m → m ≤ mf → F ((n + nf) * (mf + 1) + m) = F' n m)
      (hG : ∀ n m, -nf ≤ n → n ≤ nf → 0 ≤ m → m ≤ mf → G ((n + nf) * (mf + 1) + m) = G' n m) :
      ∑ j ∈ Ico 0 ((mf + 1) * (2 * nf + 1)), (F j, c.s.nfp * G j) = ((∑ n ∈ Ico (-nf) (nf + 1), ∑ m ∈ Ico 0 (mf + 1), F' n m),
        (c.s.nfp * ∑ n ∈ Ico (-nf) (nf + 1), ∑ m ∈ Ico 0 (mf + 1), G' n m : ℝ)) := by
    have one (F : Int → ℝ) (F' : Int → Int → ℝ)
        (hF : ∀ n m, -nf ≤ n → n ≤ nf → 0 ≤ m → m ≤ mf → F ((n + nf) * (mf + 1) + m) = F' n m) :
        ∑ j ∈ Ico 0 ((mf + 1) * (2 * nf + 1)), F j = ∑ n ∈ Ico (-nf) (nf + 1), ∑ m ∈ Ico 0 (mf + 1), F' n m := by
      have e : ∑ j ∈ Ico 0 ((mf + 1) * (2 * nf + 1)), F j = ∑ j ∈ Ico 0 ((2 * nf + 1) * (mf + 1)), F (j / (mf + 1) * (mf + 1) + j % (mf + 1)) := by
        rw [mul_comm]
        refine sum_congr rfl fun j _ => ?_
        rw [Int.ediv_mul_add_emod]
      rw [e, flat_sum (by omega) (fun q m => F (q * (mf + 1) + m))]
      refine Finset.sum_nbij' (fun j => j - nf) (fun n => n + nf) ?_ ?_ ?_ ?_ ?_
      · intro j h; rw [mem_Ico] at h ⊢; omega
      · intro j h; rw [mem_Ico] at h ⊢; omega
      · intro j _; ring
      · intro j _; ring
      · intro j h
        rw [mem_Ico] at h
        refine sum_congr rfl fun m hm => ?_
        rw [mem_Ico] at hm
        rw [← hF _ _ (by omega) (by omega) hm.1 (by omega), sub_add_cancel]
    rw [← one F F' hF, ← one G G' hG]
    ext
    · rw [Prod.fst_sum]
    · rw [Prod.snd_sum, mul_sum]
  rw [dθ, dζ]
  have dv (n m : Int) (hn : -nf ≤ n) (hm : 0 ≤ m) (hm' : m ≤ mf) : ((n + nf) * (mf + 1) + m).tdiv (mf + 1) - nf = n ∧ ((n + nf) * (mf + 1) + m).tmod (mf + 1) = m := by
    have hq0 : 0 ≤ (n + nf) * (mf + 1) := mul_nonneg (by omega) (by omega)
    constructor
    · rw [Int.tdiv_eq_ediv_of_nonneg (by omega), add_comm, Int.add_mul_ediv_right _ _ (by omega), Int.ediv_eq_zero_of_lt hm (by omega)]
      ring
    · rw [Int.tmod_eq_emod_of_nonneg (by omega), add_comm, Int.add_mul_emod_self_right, Int.emod_eq_of_lt hm (by omega)]
  refine key _ _ _ _ ?_ ?_
  · intro n m hn hn' hm hm'
    obtain ⟨p1, p2⟩ := pot_tables g m0 m1 n0 n1 h0 h1 hn hn' hm hm'
    rw [(dv n m hn hm hm').2, p1, p2]
  · intro n m hn hn' hm hm'
    obtain ⟨p1, p2⟩ := pot_tables g m0 m1 n0 n1 h0 h1 hn hn' hm hm'
    rw [(dv n m hn hm hm').1, p1, p2]

end SCtx
end Verif.Nestor
