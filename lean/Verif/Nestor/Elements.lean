import Verif.Nestor.PerformAll

/-! # Elements of the arrays of `SingularIntegrals` in terms of angles -/
namespace Verif.Nestor
open Verif Fourier Finset

namespace Ctx
variable (c : Ctx)

/-- the grid and the thread's share of it -/
structure Good : Prop where
  grid : GoodGrid c.s
  nf0 : 0 ≤ c.nf
  nf1 : c.nf ≤ c.s.nnyq2
  mf0 : 0 ≤ c.mf
  mf1 : c.mf ≤ c.s.mnyq2
  lo : 0 ≤ c.ztMin
  le : c.ztMin ≤ c.ztMax
  hi : c.ztMax ≤ c.s.nThetaEven * c.s.nZeta

/-- poloidal and toroidal angle of a point -/
noncomputable def theta (kl : Int) : ℝ := thetaGrid c.s (kl / c.s.nZeta)
noncomputable def zeta (kl : Int) : ℝ := zetaGrid c.s (kl % c.s.nZeta)

variable {c}

theorem pol_at (g : c.Good) {m l : Int} (hm0 : 0 ≤ m) (hm1 : m ≤ c.mf) (hl0 : 0 ≤ l) (hl1 : l < c.s.nThetaEven) :
    c.cosmu m l = Real.cos (m * thetaGrid c.s l) * scale m ∧ c.sgnmu l * c.sinmu m l = Real.sin (m * thetaGrid c.s l) * scale m := by
  have gm := g.mf1
  have ge := g.grid.even
  have gp := g.grid.nyqP
  have gmp := g.grid.mpol
  unfold cosmu sinmu sgnmu lr
  by_cases h : l < c.s.nThetaReduced
  · simp only [if_pos h]
    rw [pol_eq _ (Or.inr rfl) c.s m l hm0 (by omega) hl0 h]
    unfold polEntry thetaGrid
    simp
  · simp only [if_neg h]
    rw [pol_eq _ (Or.inr rfl) c.s m _ hm0 (by omega) (by omega) (by omega)]
    have hE : (c.s.nThetaEven : ℝ) ≠ 0 := by
      have : c.s.nThetaEven ≠ 0 := by omega
      exact_mod_cast this
    have e : (m : ℝ) * (2 * Real.pi * ((c.s.nThetaEven - l : Int) : ℝ) / c.s.nThetaEven)
        = (m : ℤ) * (2 * Real.pi) - m * thetaGrid c.s l := by
      unfold thetaGrid
      push_cast
      field_simp
    unfold polEntry
    simp only []
    rw [e, Real.cos_int_mul_two_pi_sub, Real.sin_int_mul_two_pi_sub]
    exact ⟨rfl, by ring⟩

theorem tor_at (g : c.Good) {n k : Int} (hn0 : 0 ≤ n) (hn1 : n ≤ c.nf) (hk0 : 0 ≤ k) (hk1 : k < c.s.nZeta) :
    c.cosnv n k = Real.cos (n * zetaGrid c.s k) * scale n ∧ c.sinnv n k = Real.sin (n * zetaGrid c.s k) * scale n := by
  have gm := g.nf1
  unfold cosnv sinnv
  rw [tor_eq _ (Or.inr rfl) c.s c.nfp n k hn0 (by omega) hk0 hk1]
  unfold torEntry zetaGrid
  exact ⟨rfl, rfl⟩

theorem scale_ne (m : Int) : scale m ≠ 0 := by
  unfold scale
  split
  · norm_num
  · exact (Real.sqrt_pos.2 (by norm_num)).ne'

theorem point (g : c.Good) {kl : Int} (h0 : c.ztMin ≤ kl) (h1 : kl < c.ztMax) :
    kl.tdiv c.s.nZeta = kl / c.s.nZeta ∧ kl.tmod c.s.nZeta = kl % c.s.nZeta ∧ 0 ≤ kl / c.s.nZeta ∧ kl / c.s.nZeta < c.s.nThetaEven ∧
      0 ≤ kl % c.s.nZeta ∧ kl % c.s.nZeta < c.s.nZeta := by
  have g1 := g.lo
  have g2 := g.hi
  have g3 := g.grid.nz
  refine ⟨Int.tdiv_eq_ediv_of_nonneg (by omega), Int.tmod_eq_emod_of_nonneg (by omega), Int.ediv_nonneg (by omega) (by omega),
    Int.ediv_lt_of_lt_mul (by omega) (by omega), Int.emod_nonneg _ (by omega), Int.emod_lt_of_pos _ (by omega)⟩

theorem waves (g : c.Good) {n m kl : Int} (hn0 : 0 ≤ n) (hn1 : n ≤ c.nf) (hm0 : 0 ≤ m) (hm1 : m ≤ c.mf) (h0 : c.ztMin ≤ kl) (h1 : kl < c.ztMax)
    (fl : Int) :
    c.sinp fl n m kl = c.cmns (lnm c.nf c.mf fl n m) * Real.sin (m * c.theta kl - n * c.zeta kl) ∧
    c.sinm fl n m kl = c.cmns (lnm c.nf c.mf fl n m) * Real.sin (m * c.theta kl + n * c.zeta kl) ∧
    c.cosp fl n m kl = c.cmns (lnm c.nf c.mf fl n m) * Real.cos (m * c.theta kl - n * c.zeta kl) ∧
    c.cosm fl n m kl = c.cmns (lnm c.nf c.mf fl n m) * Real.cos (m * c.theta kl + n * c.zeta kl) := by
  obtain ⟨e1, e2, a1, a2, a3, a4⟩ := point g h0 h1
  obtain ⟨p1, p2⟩ := pol_at g hm0 hm1 a1 a2
  obtain ⟨t1, t2⟩ := tor_at g hn0 hn1 a3 a4
  have hs := scale_ne m
  have hs' := scale_ne n
  unfold sinp sinm cosp cosm factor
  have gm := g.mf1
  have gn := g.nf1
  rw [e1, e2, p1, p2, t1, t2, fillScale_eq _ m hm0 (by omega), fillScale_eq _ n hn0 (by omega), Real.sin_sub, Real.sin_add, Real.cos_sub,
    Real.cos_add]
  unfold theta zeta
  refine ⟨?_, ?_, ?_, ?_⟩ <;> field_simp

/-- the wave of the mode with `n` of either sign -/
theorem wave_sin (g : c.Good) {n m kl : Int} (hn : |n| ≤ c.nf) (hm0 : 0 ≤ m) (hm1 : m ≤ c.mf) (h0 : c.ztMin ≤ kl) (h1 : kl < c.ztMax) (fl : Int) :
    (if 0 ≤ n then c.sinp fl |n| m kl else c.sinm fl |n| m kl) = c.cmns (lnm c.nf c.mf fl |n| m) * Real.sin (m * c.theta kl - n * c.zeta kl) := by
  obtain ⟨w1, w2, _⟩ := waves g (abs_nonneg n) hn hm0 hm1 h0 h1 fl
  split
  · rw [w1]
    have : |n| = n := abs_of_nonneg ‹_›
    rw [this]
  · rw [w2]
    have : |n| = -n := abs_of_neg (by omega)
    rw [this]; push_cast; rw [neg_mul, ← sub_eq_add_neg]

theorem wave_cos (g : c.Good) {n m kl : Int} (hn : |n| ≤ c.nf) (hm0 : 0 ≤ m) (hm1 : m ≤ c.mf) (h0 : c.ztMin ≤ kl) (h1 : kl < c.ztMax) (fl : Int) :
    (if 0 ≤ n then c.cosp fl |n| m kl else c.cosm fl |n| m kl) = c.cmns (lnm c.nf c.mf fl |n| m) * Real.cos (m * c.theta kl - n * c.zeta kl) := by
  obtain ⟨_, _, w1, w2⟩ := waves g (abs_nonneg n) hn hm0 hm1 h0 h1 fl
  split
  · rw [w1]
    have : |n| = n := abs_of_nonneg ‹_›
    rw [this]
  · rw [w2]
    have : |n| = -n := abs_of_neg (by omega)
    rw [this]; push_cast; rw [neg_mul, ← sub_eq_add_neg]

theorem sum_apply2 {ι : Type} (s : Finset ι) (f : ι → Arr) (o : Out) (i : Int) : (∑ k ∈ s, f k) o i = ∑ k ∈ s, f k o i := by
  rw [Finset.sum_apply, Finset.sum_apply]

/-- only one mode contributes -/
theorem pick {nf mf n0 m0 : Int} (h0 : 0 ≤ n0) (h1 : n0 ≤ nf) (k0 : 0 ≤ m0) (k1 : m0 ≤ mf) (F : Int → Int → ℝ)
    (hF : ∀ n m, 0 ≤ n → 0 ≤ m → m ≤ mf → ¬ (n = n0 ∧ m = m0) → F n m = 0) :
    ∑ n ∈ Ico 0 (nf + 1), ∑ m ∈ Ico 0 (mf + 1), F n m = F n0 m0 := by
  rw [sum_eq_single n0, sum_eq_single m0]
  · intro m hm hne
    rw [mem_Ico] at hm
    exact hF _ _ h0 hm.1 (by omega) (by tauto)
  · intro h; exact absurd (mem_Ico.2 ⟨k0, by omega⟩) h
  · intro n hn hne
    rw [mem_Ico] at hn
    refine sum_eq_zero fun m hm => ?_
    rw [mem_Ico] at hm
    exact hF _ _ hn.1 hm.1 (by omega) (by tauto)
  · intro h; exact absurd (mem_Ico.2 ⟨h0, by omega⟩) h

theorem bSin_eq (g : c.Good) (old : Arr) (n m : Int) (hn : |n| ≤ c.nf) (hm0 : 0 ≤ m) (hm1 : m ≤ c.mf) :
    c.performUpdate old .bSin (c.posn n m) = ∑ kl ∈ Ico c.ztMin c.ztMax, c.bw kl * Real.sin (m * c.theta kl - n * c.zeta kl)
      * ∑ fl ∈ Ico 0 (1 + c.nf + c.mf), c.cmns (lnm c.nf c.mf fl |n| m) *
        sel n m ((c.pt (kl - c.ztMin)).Tlp fl) ((c.pt (kl - c.ztMin)).Tlm fl) := by
  rw [c.performUpdate_eq (by have := g.grid.nz; omega) g.lo g.nf0 g.mf0]
  show c.clear old .bSin (c.posn n m) + (∑ fl ∈ _, _ : Arr) .bSin _ = _
  simp only [mul_sum]
  rw [sum_comm (s := Ico c.ztMin c.ztMax), sum_apply2]
  show (0 : ℝ) + _ = _
  rw [zero_add]
  refine sum_congr rfl fun fl _ => ?_
  simp only [sum_apply2]
  rw [pick (abs_nonneg n) hn hm0 hm1]
  · rw [addMode_eq, sum_apply2]
    refine sum_congr rfl fun kl hk => ?_
    rw [mem_Ico] at hk
    show c.pairMode _ _ _ _ _ _ _ _ _ _ _ _ _ + (if _ then _ else _ : Arr) _ _ = _
    rw [c.pairMode_b (by decide) _ _ _ _ n m (abs_nonneg n) hm0 hm1 hm0 hm1, if_pos ⟨rfl, rfl⟩, wave_sin g hn hm0 hm1 hk.1 hk.2]
    have : (if c.s.lasym then c.pairMode .bCos .gCos (c.cosp fl |n| m) (c.cosm fl |n| m) |n| m (fun i => (c.pt i).Tlp fl) (fun i => (c.pt i).Tlm fl)
        (c.Sp fl) (c.Sm fl) kl else 0 : Arr) .bSin (c.posn n m) = 0 := by
      split
      · exact c.pairMode_other (by decide) (by decide) _ _ _ _ _ _ _ _ _ _
      · rfl
    rw [this]; ring
  · intro n' m' hn' hm' hm1' hne
    rw [addMode_eq, sum_apply2]
    refine sum_eq_zero fun kl hk => ?_
    show c.pairMode _ _ _ _ _ _ _ _ _ _ _ _ _ + (if _ then _ else _ : Arr) _ _ = _
    rw [c.pairMode_b (by decide) _ _ _ _ n m hn' hm' hm1' hm0 hm1, if_neg hne]
    have : (if c.s.lasym then c.pairMode .bCos .gCos (c.cosp fl n' m') (c.cosm fl n' m') n' m' (fun i => (c.pt i).Tlp fl) (fun i => (c.pt i).Tlm fl)
        (c.Sp fl) (c.Sm fl) kl else 0 : Arr) .bSin (c.posn n m) = 0 := by
      split
      · exact c.pairMode_other (by decide) (by decide) _ _ _ _ _ _ _ _ _ _
      · rfl
    rw [this, add_zero]

theorem bCos_eq (g : c.Good) (hl : c.s.lasym = true) (old : Arr) (n m : Int) (hn : |n| ≤ c.nf) (hm0 : 0 ≤ m) (hm1 : m ≤ c.mf) :
    c.performUpdate old .bCos (c.posn n m) = ∑ kl ∈ Ico c.ztMin c.ztMax, c.bw kl * Real.cos (m * c.theta kl - n * c.zeta kl)
      * ∑ fl ∈ Ico 0 (1 + c.nf + c.mf), c.cmns (lnm c.nf c.mf fl |n| m) *
        sel n m ((c.pt (kl - c.ztMin)).Tlp fl) ((c.pt (kl - c.ztMin)).Tlm fl) := by
  rw [c.performUpdate_eq (by have := g.grid.nz; omega) g.lo g.nf0 g.mf0]
  show c.clear old .bCos (c.posn n m) + (∑ fl ∈ _, _ : Arr) .bCos _ = _
  simp only [mul_sum]
  rw [sum_comm (s := Ico c.ztMin c.ztMax), sum_apply2]
  have : c.clear old .bCos (c.posn n m) = 0 := by unfold clear; simp [hl]
  rw [this, zero_add]
  refine sum_congr rfl fun fl _ => ?_
  simp only [sum_apply2]
  rw [pick (abs_nonneg n) hn hm0 hm1]
  · rw [addMode_eq, sum_apply2]
    refine sum_congr rfl fun kl hk => ?_
    rw [mem_Ico] at hk
    rw [if_pos hl]
    show c.pairMode _ _ _ _ _ _ _ _ _ _ _ _ _ + c.pairMode _ _ _ _ _ _ _ _ _ _ _ _ _ = _
    rw [c.pairMode_b (b := .bCos) (by decide) _ _ _ _ n m (abs_nonneg n) hm0 hm1 hm0 hm1, if_pos ⟨rfl, rfl⟩, wave_cos g hn hm0 hm1 hk.1 hk.2,
      c.pairMode_other (by decide) (by decide)]
    ring
  · intro n' m' hn' hm' hm1' hne
    rw [addMode_eq, sum_apply2]
    refine sum_eq_zero fun kl hk => ?_
    rw [if_pos hl]
    show c.pairMode _ _ _ _ _ _ _ _ _ _ _ _ _ + c.pairMode _ _ _ _ _ _ _ _ _ _ _ _ _ = _
    rw [c.pairMode_b (b := .bCos) (by decide) _ _ _ _ n m hn' hm' hm1' hm0 hm1, if_neg hne, c.pairMode_other (by decide) (by decide), add_zero]

theorem gSin_eq (g : c.Good) (hf : c.fullUpdate = true) (old : Arr) (n m q : Int) (hn : |n| ≤ c.nf) (hm0 : 0 ≤ m) (hm1 : m ≤ c.mf)
    (hq : c.ztMin ≤ q) (hq' : q < c.ztMax) :
    c.performUpdate old .gSin (c.posn n m * c.numLocal + (q - c.ztMin)) = Real.sin (m * c.theta q - n * c.zeta q)
      * ∑ fl ∈ Ico 0 (1 + c.nf + c.mf), c.cmns (lnm c.nf c.mf fl |n| m) * sel n m (c.Sp fl (q - c.ztMin)) (c.Sm fl (q - c.ztMin)) := by
  rw [c.performUpdate_eq (by have := g.grid.nz; omega) g.lo g.nf0 g.mf0]
  show c.clear old .gSin _ + (∑ fl ∈ _, _ : Arr) .gSin _ = _
  have : c.clear old .gSin (c.posn n m * c.numLocal + (q - c.ztMin)) = 0 := by unfold clear; simp [hf]
  rw [this, zero_add, mul_sum, sum_apply2]
  refine sum_congr rfl fun fl _ => ?_
  simp only [sum_apply2]
  have zero : ∀ n' m' kl, (if c.s.lasym then c.pairMode .bCos .gCos (c.cosp fl n' m') (c.cosm fl n' m') n' m' (fun i => (c.pt i).Tlp fl)
      (fun i => (c.pt i).Tlm fl) (c.Sp fl) (c.Sm fl) kl else 0 : Arr) .gSin (c.posn n m * c.numLocal + (q - c.ztMin)) = 0 := by
    intro n' m' kl
    split
    · exact c.pairMode_other (by decide) (by decide) _ _ _ _ _ _ _ _ _ _
    · rfl
  rw [pick (abs_nonneg n) hn hm0 hm1]
  · rw [addMode_eq, sum_apply2, sum_eq_single q]
    · show c.pairMode _ _ _ _ _ _ _ _ _ _ _ _ _ + (if _ then _ else _ : Arr) _ _ = _
      rw [c.pairMode_g (by decide) hf _ _ _ _ n m (abs_nonneg n) hm0 hm1 hm0 hm1 _ _ _ _ q q hq hq' hq hq', if_pos rfl, if_pos ⟨rfl, rfl⟩,
        wave_sin g hn hm0 hm1 hq hq', zero]
      ring
    · intro kl hk hne
      rw [mem_Ico] at hk
      show c.pairMode _ _ _ _ _ _ _ _ _ _ _ _ _ + (if _ then _ else _ : Arr) _ _ = _
      rw [c.pairMode_g (by decide) hf _ _ _ _ n m (abs_nonneg n) hm0 hm1 hm0 hm1 _ _ _ _ kl q hk.1 hk.2 hq hq', if_neg hne, zero, add_zero]
    · intro h; exact absurd (mem_Ico.2 ⟨hq, hq'⟩) h
  · intro n' m' hn' hm' hm1' hne
    rw [addMode_eq, sum_apply2]
    refine sum_eq_zero fun kl hk => ?_
    rw [mem_Ico] at hk
    show c.pairMode _ _ _ _ _ _ _ _ _ _ _ _ _ + (if _ then _ else _ : Arr) _ _ = _
    rw [c.pairMode_g (by decide) hf _ _ _ _ n m hn' hm' hm1' hm0 hm1 _ _ _ _ kl q hk.1 hk.2 hq hq', zero, if_neg hne]
    simp

theorem gCos_eq (g : c.Good) (hf : c.fullUpdate = true) (hl : c.s.lasym = true) (old : Arr) (n m q : Int) (hn : |n| ≤ c.nf) (hm0 : 0 ≤ m)
    (hm1 : m ≤ c.mf) (hq : c.ztMin ≤ q) (hq' : q < c.ztMax) :
    c.performUpdate old .gCos (c.posn n m * c.numLocal + (q - c.ztMin)) = Real.cos (m * c.theta q - n * c.zeta q)
      * ∑ fl ∈ Ico 0 (1 + c.nf + c.mf), c.cmns (lnm c.nf c.mf fl |n| m) * sel n m (c.Sp fl (q - c.ztMin)) (c.Sm fl (q - c.ztMin)) := by
  rw [c.performUpdate_eq (by have := g.grid.nz; omega) g.lo g.nf0 g.mf0]
  show c.clear old .gCos _ + (∑ fl ∈ _, _ : Arr) .gCos _ = _
  have : c.clear old .gCos (c.posn n m * c.numLocal + (q - c.ztMin)) = 0 := by unfold clear; simp [hf, hl]
  rw [this, zero_add, mul_sum, sum_apply2]
  refine sum_congr rfl fun fl _ => ?_
  simp only [sum_apply2]
  rw [pick (abs_nonneg n) hn hm0 hm1]
  · rw [addMode_eq, sum_apply2, sum_eq_single q]
    · rw [if_pos hl]
      show c.pairMode _ _ _ _ _ _ _ _ _ _ _ _ _ + c.pairMode _ _ _ _ _ _ _ _ _ _ _ _ _ = _
      rw [c.pairMode_g (g := .gCos) (by decide) hf _ _ _ _ n m (abs_nonneg n) hm0 hm1 hm0 hm1 _ _ _ _ q q hq hq' hq hq', if_pos rfl,
        if_pos ⟨rfl, rfl⟩, wave_cos g hn hm0 hm1 hq hq', c.pairMode_other (by decide) (by decide)]
      ring
    · intro kl hk hne
      rw [mem_Ico] at hk
      rw [if_pos hl]
      show c.pairMode _ _ _ _ _ _ _ _ _ _ _ _ _ + c.pairMode _ _ _ _ _ _ _ _ _ _ _ _ _ = _
      rw [c.pairMode_g (g := .gCos) (by decide) hf _ _ _ _ n m (abs_nonneg n) hm0 hm1 hm0 hm1 _ _ _ _ kl q hk.1 hk.2 hq hq', if_neg hne,
        c.pairMode_other (by decide) (by decide), add_zero]
    · intro h; exact absurd (mem_Ico.2 ⟨hq, hq'⟩) h
  · intro n' m' hn' hm' hm1' hne
    rw [addMode_eq, sum_apply2]
    refine sum_eq_zero fun kl hk => ?_
    rw [mem_Ico] at hk
    rw [if_pos hl]
    show c.pairMode _ _ _ _ _ _ _ _ _ _ _ _ _ + c.pairMode _ _ _ _ _ _ _ _ _ _ _ _ _ = _
    rw [c.pairMode_g (g := .gCos) (by decide) hf _ _ _ _ n m hn' hm' hm1' hm0 hm1 _ _ _ _ kl q hk.1 hk.2 hq hq', if_neg hne,
      c.pairMode_other (by decide) (by decide)]
    simp

end Ctx
end Verif.Nestor
