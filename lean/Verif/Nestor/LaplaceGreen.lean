import Verif.Nestor.LaplaceFold

/-! # The transformed Green function and the matrix elements -/
namespace Verif.Nestor
open Verif Fourier Finset

namespace LCtx
variable (c : LCtx)

/-- what an iteration of the loops of `transformGreen` adds -/
noncomputable def grpTerm (G : Int → ℝ) (klp l m n : Int) (p : Par) (i : Int) : ℝ :=
  let r := klp - c.ztMin
  let off := r * c.s.nThetaEven * c.s.nZeta
  let A := ((c.nf + n) * (c.mf + 1) + m) * c.numLocal + r
  let B := ((c.nf - n) * (c.mf + 1) + m) * c.numLocal + r
  match p with
  | .sin => (if i = A then c.g1 .sin G off l n * c.sinmuiS l m - c.g2 .sin G off l n * c.cosmuiS l m else 0)
      + if n > 0 ∧ i = B then c.g1 .sin G off l n * c.sinmuiS l m + c.g2 .sin G off l n * c.cosmuiS l m else 0
  | .cos => if c.s.lasym then (if i = A then c.g1 .cos G off l n * c.cosmuiS l m + c.g2 .cos G off l n * c.sinmuiS l m else 0)
      + (if n > 0 ∧ i = B then c.g1 .cos G off l n * c.cosmuiS l m - c.g2 .cos G off l n * c.sinmuiS l m else 0) else 0

theorem grpBody_eq (G : Int → ℝ) (klp l m n : Int) (a : Par → Int → ℝ) (p : Par) (i : Int) :
    c.grpBody G klp l m n a p i = a p i + c.grpTerm G klp l m n p i := by
  unfold grpBody grpTerm
  cases p <;> by_cases hn : n > 0 <;> by_cases hl : c.s.lasym = true <;> simp [hn, hl, addTo_apply, add_assoc]

theorem transformGreen_sum (G : Int → ℝ) (p : Par) (i : Int) : c.transformGreen G p i =
    ∑ klp ∈ Ico c.ztMin c.ztMax, ∑ l ∈ Ico 0 c.s.nThetaReduced, ∑ m ∈ Ico 0 (c.mf + 1), ∑ n ∈ Ico 0 (c.nf + 1), c.grpTerm G klp l m n p i := by
  unfold transformGreen
  rw [forRange_addAll _ fun klp p i => ∑ l ∈ Ico 0 c.s.nThetaReduced, ∑ m ∈ Ico 0 (c.mf + 1), ∑ n ∈ Ico 0 (c.nf + 1), c.grpTerm G klp l m n p i, zero_add]
  intro klp s p i _ _
  rw [forRange_addAll _ fun l p i => ∑ m ∈ Ico 0 (c.mf + 1), ∑ n ∈ Ico 0 (c.nf + 1), c.grpTerm G klp l m n p i]
  intro l s p i _ _
  rw [forRange_addAll _ fun m p i => ∑ n ∈ Ico 0 (c.nf + 1), c.grpTerm G klp l m n p i]
  intro m s p i _ _
  rw [forRange_addAll _ fun n p i => c.grpTerm G klp l m n p i]
  intro n s p i _ _
  exact c.grpBody_eq G klp l m n s p i

theorem pick (nf N : Int) (h0 : -nf ≤ N) (h1 : N ≤ nf) (a b : Int → ℝ) :
    ∑ n ∈ Ico 0 (nf + 1), ((if n = N then a n else 0) + if n > 0 ∧ -n = N then b n else 0) = if 0 ≤ N then a N else b (-N) := by
  split
  · rename_i h
    rw [sum_eq_single N]
    · rw [if_pos rfl, if_neg (by omega), add_zero]
    · intro n hn hne
      rw [mem_Ico] at hn
      rw [if_neg hne, if_neg (by omega), add_zero]
    · intro hn
      rw [mem_Ico] at hn
      omega
  · rename_i h
    rw [sum_eq_single (-N)]
    · rw [if_neg (by omega), if_pos (by omega), zero_add]
    · intro n hn hne
      rw [mem_Ico] at hn
      rw [if_neg (by omega), if_neg (by omega), add_zero]
    · intro hn
      rw [mem_Ico] at hn
      omega

variable {c}

theorem index_iff (g : c.Good) {klp klp' m m' N N' : Int} (hk : c.ztMin ≤ klp) (hk' : klp < c.ztMax) (hm : 0 ≤ m) (hm' : m ≤ c.mf)
    (jk : c.ztMin ≤ klp') (jk' : klp' < c.ztMax) (jm : 0 ≤ m') (jm' : m' ≤ c.mf) :
    ((c.nf + N) * (c.mf + 1) + m) * c.numLocal + (klp - c.ztMin) = ((c.nf + N') * (c.mf + 1) + m') * c.numLocal + (klp' - c.ztMin)
      ↔ klp' = klp ∧ m' = m ∧ N' = N := by
  constructor
  · intro h
    obtain ⟨h1, h2⟩ := flat_inj (b := c.numLocal) (by omega) (by unfold numLocal; omega) (by omega) (by unfold numLocal; omega) h
    obtain ⟨h3, h4⟩ := flat_inj (b := c.mf + 1) (by omega) (by omega) (by omega) (by omega) h1
    omega
  · rintro ⟨rfl, rfl, rfl⟩; rfl

theorem transformGreen_eq (g : c.Good) (G : Int → ℝ) (p : Par) (hp : p = .sin ∨ c.s.lasym = true) {klp N m : Int}
    (hk : c.ztMin ≤ klp) (hk' : klp < c.ztMax) (h0 : -c.nf ≤ N) (h1 : N ≤ c.nf) (hm0 : 0 ≤ m) (hm1 : m ≤ c.mf) :
    c.transformGreen G p (((c.nf + N) * (c.mf + 1) + m) * c.numLocal + (klp - c.ztMin))
      = c.gridMean fun l k => G ((klp - c.ztMin) * (c.s.nThetaEven * c.s.nZeta) + (l * c.s.nZeta + k)) * p.fn (c.phase N m l k) := by
  rw [transformGreen_sum]
  set i0 := ((c.nf + N) * (c.mf + 1) + m) * c.numLocal + (klp - c.ztMin) with hi0
  set off := (klp - c.ztMin) * (c.s.nThetaEven * c.s.nZeta) with hoff
  have hoff' : (klp - c.ztMin) * c.s.nThetaEven * c.s.nZeta = off := by rw [hoff]; ring
  -- terms that hit
  have miss : ∀ klp' l' m' n', c.ztMin ≤ klp' → klp' < c.ztMax → 0 ≤ m' → m' ≤ c.mf → ¬(klp' = klp ∧ m' = m) → c.grpTerm G klp' l' m' n' p i0 = 0 := by
    intro klp' l' m' n' a1 a2 a3 a4 hne
    have q1 : ¬ i0 = ((c.nf + n') * (c.mf + 1) + m') * c.numLocal + (klp' - c.ztMin) := by
      rw [hi0, index_iff g hk hk' hm0 hm1 a1 a2 a3 a4]; tauto
    have q2 : ¬ i0 = ((c.nf - n') * (c.mf + 1) + m') * c.numLocal + (klp' - c.ztMin) := by
      rw [hi0, show c.nf - n' = c.nf + -n' by ring, index_iff g hk hk' hm0 hm1 a1 a2 a3 a4]; tauto
    unfold grpTerm
    cases p <;> simp [q1, q2]
  have hit : ∀ l', ∑ n' ∈ Ico 0 (c.nf + 1), c.grpTerm G klp l' m n' p i0 = if 0 ≤ N then
      (match p with
        | .sin => c.g1 .sin G off l' N * c.sinmuiS l' m - c.g2 .sin G off l' N * c.cosmuiS l' m
        | .cos => c.g1 .cos G off l' N * c.cosmuiS l' m + c.g2 .cos G off l' N * c.sinmuiS l' m)
      else
      (match p with
        | .sin => c.g1 .sin G off l' (-N) * c.sinmuiS l' m + c.g2 .sin G off l' (-N) * c.cosmuiS l' m
        | .cos => c.g1 .cos G off l' (-N) * c.cosmuiS l' m - c.g2 .cos G off l' (-N) * c.sinmuiS l' m) := by
    intro l'
    have q1 : ∀ n', (i0 = ((c.nf + n') * (c.mf + 1) + m) * c.numLocal + (klp - c.ztMin)) = (n' = N) := by
      intro n'; rw [hi0, index_iff g hk hk' hm0 hm1 hk hk' hm0 hm1]; simp
    have q2 : ∀ n', (i0 = ((c.nf - n') * (c.mf + 1) + m) * c.numLocal + (klp - c.ztMin)) = (-n' = N) := by
      intro n'; rw [hi0, show c.nf - n' = c.nf + -n' by ring, index_iff g hk hk' hm0 hm1 hk hk' hm0 hm1]; simp
    unfold grpTerm
    cases p
    · simp only [q1, q2, hoff']
      exact pick c.nf N h0 h1 _ fun n' => c.g1 .sin G off l' n' * c.sinmuiS l' m + c.g2 .sin G off l' n' * c.cosmuiS l' m
    · have hl : c.s.lasym = true := by rcases hp with h | h; · cases h
                                       · exact h
      simp only [q1, q2, hoff', hl, if_true]
      exact pick c.nf N h0 h1 _ fun n' => c.g1 .cos G off l' n' * c.cosmuiS l' m - c.g2 .cos G off l' n' * c.sinmuiS l' m
  rw [sum_eq_single klp]
  rotate_left
  · intro k' hk2 hne
    rw [mem_Ico] at hk2
    refine sum_eq_zero fun l' _ => sum_eq_zero fun m' hm' => sum_eq_zero fun n' _ => ?_
    rw [mem_Ico] at hm'
    exact miss k' l' m' n' hk2.1 hk2.2 hm'.1 (by omega) fun h => hne h.1
  · intro h; rw [mem_Ico] at h; omega
  have e1 : ∀ l', ∑ m' ∈ Ico 0 (c.mf + 1), ∑ n' ∈ Ico 0 (c.nf + 1), c.grpTerm G klp l' m' n' p i0
      = ∑ n' ∈ Ico 0 (c.nf + 1), c.grpTerm G klp l' m n' p i0 := by
    intro l'
    refine sum_eq_single m (fun m' hm' hne => sum_eq_zero fun n' _ => ?_) fun h => ?_
    · rw [mem_Ico] at hm'
      exact miss klp l' m' n' hk hk' hm'.1 (by omega) fun h => hne h.2
    · rw [mem_Ico] at h; omega
  simp only [e1, hit]
  rw [← fold g p N m fun l k => G (off + (l * c.s.nZeta + k))]
  simp only [← part_eq]
  obtain ⟨pa, pb⟩ := project g (c.part p G off) N m hm0 hm1
  cases p
  · rw [← pa, ← sum_sub_distrib]
    refine sum_congr rfl fun l' _ => ?_
    by_cases h : 0 ≤ N
    · rw [if_pos h]
      simp only [(g1_at g .sin G off l' h h1).1, (g1_at g .sin G off l' h h1).2]; ring
    · rw [if_neg h]
      simp only [(g1_at g .sin G off l' (n := -N) (by omega) (by omega)).1, (g1_at g .sin G off l' (n := -N) (by omega) (by omega)).2]
      push_cast
      simp only [neg_mul, Real.cos_neg, Real.sin_neg, sum_neg_distrib]; ring
  · rw [← pb, ← sum_add_distrib]
    refine sum_congr rfl fun l' _ => ?_
    by_cases h : 0 ≤ N
    · rw [if_pos h]
      simp only [(g1_at g .cos G off l' h h1).1, (g1_at g .cos G off l' h h1).2]; ring
    · rw [if_neg h]
      simp only [(g1_at g .cos G off l' (n := -N) (by omega) (by omega)).1, (g1_at g .cos G off l' (n := -N) (by omega) (by omega)).2]
      push_cast
      simp only [neg_mul, Real.cos_neg, Real.sin_neg, sum_neg_distrib]; ring

/-! ## matrix elements -/
variable (c)
/-- the value at a grid point that belongs to the thread, zero elsewhere -/
noncomputable def atPoint (grp : Par → Int → ℝ) (p : Par) (mn l k : Int) : ℝ :=
  if c.ztMin ≤ l * c.s.nZeta + k ∧ l * c.s.nZeta + k < c.ztMax then grp p (mn * c.numLocal + (l * c.s.nZeta + k - c.ztMin)) else 0
variable {c}

theorem actempPos_eq (g : c.Good) (grp : Par → Int → ℝ) (p : Par) (mn l : Int) {n : Int} (h0 : 0 ≤ n) (h1 : n ≤ c.nf) :
    c.actempPos grp p mn n l = ∑ k ∈ Ico 0 c.s.nZeta, Real.cos (n * zetaGrid c.s k) * c.atPoint grp p mn l k ∧
    c.astempPos grp p mn n l = ∑ k ∈ Ico 0 c.s.nZeta, Real.sin (n * zetaGrid c.s k) * c.atPoint grp p mn l k := by
  unfold actempPos astempPos
  constructor
  · rw [forRange_measure (V := fun x => x) (g := fun k => Real.cos (n * zetaGrid c.s k) * c.atPoint grp p mn l k), zero_add]
    intro k b hk0 hk1
    unfold atPoint
    simp only [(cosnv_at g h0 h1 hk0 hk1).1]
    split
    · rw [if_neg (by omega)]; ring
    · rw [if_pos (by omega)]
  · rw [forRange_measure (V := fun x => x) (g := fun k => Real.sin (n * zetaGrid c.s k) * c.atPoint grp p mn l k), zero_add]
    intro k b hk0 hk1
    unfold atPoint
    simp only [(cosnv_at g h0 h1 hk0 hk1).2]
    split
    · rw [if_neg (by omega)]; ring
    · rw [if_pos (by omega)]

theorem actemp_eq (g : c.Good) (grp : Par → Int → ℝ) (p : Par) (mn l : Int) {n : Int} (h0 : -c.nf ≤ n) (h1 : n ≤ c.nf) :
    c.actemp grp p mn n l = ∑ k ∈ Ico 0 c.s.nZeta, Real.cos (n * zetaGrid c.s k) * c.atPoint grp p mn l k ∧
    c.astemp grp p mn n l = ∑ k ∈ Ico 0 c.s.nZeta, Real.sin (n * zetaGrid c.s k) * c.atPoint grp p mn l k := by
  unfold actemp astemp
  split
  · rename_i h
    exact actempPos_eq g grp p mn l h h1
  · rename_i h
    obtain ⟨a, b⟩ := actempPos_eq g grp p mn l (n := -n) (by omega) (by omega)
    rw [a, b, ← sum_neg_distrib]
    push_cast
    constructor <;>
    · refine sum_congr rfl fun k _ => ?_
      simp only [neg_mul, Real.cos_neg, Real.sin_neg, neg_neg]

/-- blocks with rows of sines use half of the grid -/
theorem amat_sin (g : c.Good) (grp : Par → Int → ℝ) (q : Par) (mn : Int) {n m : Int} (h0 : -c.nf ≤ n) (h1 : n ≤ c.nf) (hm0 : 0 ≤ m) (hm1 : m ≤ c.mf) :
    c.amat grp .sin q mn n m
      = ∑ l ∈ Ico 0 c.s.nThetaReduced, (∑ k ∈ Ico 0 c.s.nZeta, c.atPoint grp .sin mn l k * q.fn (c.phase n m l k)) * c.rw l := by
  obtain ⟨pa, pb⟩ := project g (c.atPoint grp .sin mn) n m hm0 hm1
  cases q
  · rw [← pa]; unfold amat
    simp only [(actemp_eq g grp .sin mn _ h0 h1).1, (actemp_eq g grp .sin mn _ h0 h1).2]
  · rw [← pb]; unfold amat
    simp only [(actemp_eq g grp .sin mn _ h0 h1).1, (actemp_eq g grp .sin mn _ h0 h1).2]

/-- blocks with rows of cosines use the whole grid -/
theorem amat_cos (g : c.Good) (grp : Par → Int → ℝ) (q : Par) (mn : Int) {n m : Int} (h0 : -c.nf ≤ n) (h1 : n ≤ c.nf) (hm0 : 0 ≤ m) (hm1 : m ≤ c.mf) :
    c.amat grp .cos q mn n m = c.gridMean fun l k => c.atPoint grp .cos mn l k * q.fn (c.phase n m l k) := by
  rw [← fold g q n m]
  obtain ⟨pa, pb⟩ := project g (fun l k => (c.atPoint grp .cos mn l k + q.sgn * c.atPoint grp .cos mn (c.revL l) (c.revK k)) * 0.5) n m hm0 hm1
  have rc : ∀ l, ∑ k ∈ Ico 0 c.s.nZeta, Real.cos (n * zetaGrid c.s k) * c.atPoint grp .cos mn l (c.revK k)
      = ∑ k ∈ Ico 0 c.s.nZeta, Real.cos (n * zetaGrid c.s k) * c.atPoint grp .cos mn l k := by
    intro l
    rw [← sum_rev c.s.nZeta fun k => Real.cos (n * zetaGrid c.s k) * c.atPoint grp .cos mn l k]
    refine sum_congr rfl fun k hk => ?_
    rw [mem_Ico] at hk
    have := fn_rev g .cos n 0 (l := 0) le_rfl (by have := g.grid.even; have := g.grid.nyqP; have := g.grid.mpol; omega) hk.1 hk.2
    simp only [Par.fn, phase, Par.sgn, Int.cast_zero, zero_mul, zero_sub, Real.cos_neg, one_mul] at this
    show _ = Real.cos (n * zetaGrid c.s (c.revK k)) * _
    rw [this]; rfl
  have rs : ∀ l, ∑ k ∈ Ico 0 c.s.nZeta, Real.sin (n * zetaGrid c.s k) * c.atPoint grp .cos mn l (c.revK k)
      = -∑ k ∈ Ico 0 c.s.nZeta, Real.sin (n * zetaGrid c.s k) * c.atPoint grp .cos mn l k := by
    intro l
    rw [← sum_rev c.s.nZeta fun k => Real.sin (n * zetaGrid c.s k) * c.atPoint grp .cos mn l k, ← sum_neg_distrib]
    refine sum_congr rfl fun k hk => ?_
    rw [mem_Ico] at hk
    have := fn_rev g .sin n 0 (l := 0) le_rfl (by have := g.grid.even; have := g.grid.nyqP; have := g.grid.mpol; omega) hk.1 hk.2
    simp only [Par.fn, phase, Par.sgn, Int.cast_zero, zero_mul, zero_sub, Real.sin_neg, neg_mul, one_mul, neg_inj] at this
    show _ = -(Real.sin (n * zetaGrid c.s (c.revK k)) * _)
    rw [this, neg_mul, neg_neg]; rfl
  have hc : ∀ l, ∑ k ∈ Ico 0 c.s.nZeta, Real.cos (n * zetaGrid c.s k) * ((c.atPoint grp .cos mn l k + q.sgn * c.atPoint grp .cos mn (c.revL l) (c.revK k)) * 0.5)
      = 0.5 * (∑ k ∈ Ico 0 c.s.nZeta, Real.cos (n * zetaGrid c.s k) * c.atPoint grp .cos mn l k
        + q.sgn * ∑ k ∈ Ico 0 c.s.nZeta, Real.cos (n * zetaGrid c.s k) * c.atPoint grp .cos mn (c.revL l) k) := by
    intro l
    rw [← rc (c.revL l), mul_sum, ← sum_add_distrib, mul_sum]
    exact sum_congr rfl fun k _ => by ring
  have hs : ∀ l, ∑ k ∈ Ico 0 c.s.nZeta, Real.sin (n * zetaGrid c.s k) * ((c.atPoint grp .cos mn l k + q.sgn * c.atPoint grp .cos mn (c.revL l) (c.revK k)) * 0.5)
      = 0.5 * (∑ k ∈ Ico 0 c.s.nZeta, Real.sin (n * zetaGrid c.s k) * c.atPoint grp .cos mn l k
        - q.sgn * ∑ k ∈ Ico 0 c.s.nZeta, Real.sin (n * zetaGrid c.s k) * c.atPoint grp .cos mn (c.revL l) k) := by
    intro l
    rw [← neg_neg (∑ k ∈ Ico 0 c.s.nZeta, Real.sin (n * zetaGrid c.s k) * c.atPoint grp .cos mn (c.revL l) k), ← rs (c.revL l), ← sum_neg_distrib,
      mul_sum, ← sum_sub_distrib, mul_sum]
    exact sum_congr rfl fun k _ => by ring
  cases q
  · rw [← pa]; unfold amat
    simp only [hc, hs, (actemp_eq g grp .cos mn _ h0 h1).1, (actemp_eq g grp .cos mn _ h0 h1).2]
    simp only [Par.sgn]
    congr 1 <;> exact sum_congr rfl fun l _ => by ring
  · rw [← pb]; unfold amat
    simp only [hc, hs, (actemp_eq g grp .cos mn _ h0 h1).1, (actemp_eq g grp .cos mn _ h0 h1).2]
    simp only [Par.sgn]
    congr 1 <;> exact sum_congr rfl fun l _ => by ring

end LCtx
end Verif.Nestor
