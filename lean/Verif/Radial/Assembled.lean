import Verif.Radial.Entries

/-! # The assembled arrays -/
namespace Verif.Radial
open Verif Finset

variable {c : PCtx} {G : Glob}

/-- values left by one pass of the loops -/
noncomputable def entryVal (c : PCtx) (R Z : Ent → Int → ℝ) (jF m n : Int) (v : Arr → ℝ) : Arr → ℝ :=
  let p : Bool := decide (m.tmod 2 = 1)
  let off (M : Ent → Int → ℝ) (j : Int) : ℝ := -(M (.axm p) (j - c.r.nsMinH) + M (.bxm p) (j - c.r.nsMinH) * m * m)
  let dia (M : Ent → Int → ℝ) : ℝ := -(M (.axd p) (jF - c.r.nsMinF) + M (.bxd p) (jF - c.r.nsMinF) * m * m + M .cxd (jF - c.r.nsMinF) * n * c.s.nfp * n * c.s.nfp)
  fun k =>
    if jF ≥ jMinOf m then
      match k with
      | .ar => if jF < c.r.nsMaxH then off R jF else v .ar
      | .az => if jF < c.r.nsMaxH then off Z jF else v .az
      | .br => if jF > 0 then off R (jF - 1) else v .br
      | .bz => if jF > 0 then off Z (jF - 1) else v .bz
      | .dr => dia R + if jF = 1 ∧ m = 1 then off R (jF - 1) else 0
      | .dz => dia Z + if jF = 1 ∧ m = 1 then off Z (jF - 1) else 0
    else 0

theorem entry_apply (R Z : Ent → Int → ℝ) (jF m n : Int) (a : Arr → Int → ℝ) (i : Int) :
    (fun k => c.entry R Z jF m n a k i) = if i = fcIdx c.r.nsMinF c.s.mpol c.s.ntor jF m n then entryVal c R Z jF m n (fun k => a k i) else fun k => a k i := by
  funext k
  have hi : c.idx jF m n = fcIdx c.r.nsMinF c.s.mpol c.s.ntor jF m n := rfl
  rw [← hi]
  by_cases e : i = c.idx jF m n
  · subst e
    rw [if_pos rfl]
    unfold PCtx.entry entryVal
    simp only []
    by_cases h1 : jF ≥ jMinOf m
    · simp only [h1, if_true]
      by_cases h4 : jF = 1 ∧ m = 1
      · have h3 : jF > 0 := by omega
        simp only [h4, and_self, if_true, h3]
        by_cases h2 : 1 < c.r.nsMaxH <;> simp only [h2, if_true, if_false] <;>
          cases k <;> simp [put_apply]
      · simp only [h4, if_false]
        by_cases h2 : jF < c.r.nsMaxH <;> by_cases h3 : jF > 0 <;> simp only [h2, h3, if_true, if_false] <;>
          cases k <;> simp [put_apply]
    · simp only [h1, if_false]
      cases k <;> simp [put_apply]
  · rw [if_neg e]
    unfold PCtx.entry
    simp only []
    split
    · split <;> split <;> split <;> simp only [put_apply, e, and_false, if_false]
    · simp only [put_apply, e, and_false, if_false]

theorem scaleBoth_apply (i : Int) (v : ℝ) (a : Arr → Int → ℝ) (k : Arr) (i' : Int) :
    PCtx.scaleBoth i v a k i' = if (k = .dr ∨ k = .dz) ∧ i' = i then a k i' * v else a k i' := by
  unfold PCtx.scaleBoth
  by_cases e : i' = i
  · subst e
    cases k <;> simp [put_apply]
  · simp [put_apply, e]

/-- factor of the diagonal element of the boundary -/
noncomputable def edgeFactor (deltaS : ℝ) (k : Arr) (m n : Int) : ℝ :=
  if k = .dz ∧ m = 0 ∧ n = 0 then 1 - min 0.25 (0.25 * deltaS * 15) else if m ≤ 1 then 1.05 else 1.1

theorem edge_apply (hm2 : 2 ≤ c.s.mpol) (hmax : c.r.nsMaxF = c.ns) (a : Arr → Int → ℝ) {k : Arr} {jF m n : Int}
    (m0 : 0 ≤ m) (m1 : m < c.s.mpol) (n0 : 0 ≤ n) (n1 : n ≤ c.s.ntor) :
    c.edge a k (c.idx jF m n) = if (k = .dr ∨ k = .dz) ∧ jF = c.ns - 1 then a k (c.idx jF m n) * edgeFactor c.deltaS k m n else a k (c.idx jF m n) := by
  have inj {j' m' n' : Int} (h0 : 0 ≤ m') (h1 : m' < c.s.mpol) (h2 : 0 ≤ n') (h3 : n' ≤ c.s.ntor) : c.idx jF m n = c.idx j' m' n' ↔ jF = j' ∧ m = m' ∧ n = n' :=
    ⟨fun h => fcIdx_inj m0 m1 n0 n1 h0 h1 h2 h3 h, fun ⟨a, b, c⟩ => by rw [a, b, c]⟩
  have i00 : (c.ns - 1 - c.r.nsMinF) * c.s.mpol * (c.s.ntor + 1) = c.idx (c.ns - 1) 0 0 := by unfold PCtx.idx; ring
  -- the loop
  have body (n' : Int) (h2 : 0 ≤ n') (h3 : n' ≤ c.s.ntor) (a : Arr → Int → ℝ) :
      forRange 2 c.s.mpol (fun m a => PCtx.scaleBoth (c.idx (c.ns - 1) m n') (1 + 2 * PCtx.pedestal) a)
        (PCtx.scaleBoth (c.idx (c.ns - 1) 1 n') (1 + PCtx.pedestal) (PCtx.scaleBoth (c.idx (c.ns - 1) 0 n') (1 + PCtx.pedestal) a)) k (c.idx jF m n)
      = if n' = n then (if (k = .dr ∨ k = .dz) ∧ jF = c.ns - 1 then a k (c.idx jF m n) * (if m ≤ 1 then 1.05 else 1.1) else a k (c.idx jF m n)) else a k (c.idx jF m n) := by
    have pre : (PCtx.scaleBoth (c.idx (c.ns - 1) 1 n') (1 + PCtx.pedestal) (PCtx.scaleBoth (c.idx (c.ns - 1) 0 n') (1 + PCtx.pedestal) a)) k (c.idx jF m n)
        = if n' = n ∧ (k = .dr ∨ k = .dz) ∧ jF = c.ns - 1 ∧ m ≤ 1 then a k (c.idx jF m n) * 1.05 else a k (c.idx jF m n) := by
      have p5 : (1 : ℝ) + PCtx.pedestal = 1.05 := by unfold PCtx.pedestal; norm_num
      rw [scaleBoth_apply, scaleBoth_apply, p5]
      simp only [inj (show (0 : Int) ≤ 1 by omega) (show 1 < c.s.mpol by omega) h2 h3, inj (le_refl (0 : Int)) (show 0 < c.s.mpol by omega) h2 h3]
      by_cases hk : k = .dr ∨ k = .dz
      · by_cases hj : jF = c.ns - 1
        · by_cases hn : n' = n
          · subst hn
            simp only [hk, hj, true_and, and_true]
            rcases lt_trichotomy m 1 with h | h | h
            · have : m = 0 := by omega
              subst this
              norm_num
            · subst h
              norm_num
            · rw [if_neg (by omega), if_neg (by omega), if_neg (by omega)]
          · simp only [hn, fun h : n = n' => hn h.symm, false_and, and_false, if_false]
            simp only [show ¬ (n = n') from fun h => hn h.symm, and_false, if_false]
        · simp only [hj, false_and, and_false, if_false]
      · simp only [hk, false_and, and_false, if_false]
    have p1 : (1 : ℝ) + 2 * PCtx.pedestal = 1.1 := by unfold PCtx.pedestal; norm_num
    by_cases hb : 2 ≤ m ∧ n' = n ∧ (k = .dr ∨ k = .dz) ∧ jF = c.ns - 1
    · rw [forRange_apply _ k (c.idx jF m n) (fun m' x => if (k = .dr ∨ k = .dz) ∧ c.idx jF m n = c.idx (c.ns - 1) m' n' then x * (1 + 2 * PCtx.pedestal) else x)
        (fun m' s => scaleBoth_apply _ _ s k _), forRange_only (j0 := m) hb.1 m1]
      · rw [if_pos (show (k = .dr ∨ k = .dz) ∧ c.idx jF m n = c.idx (c.ns - 1) m n' from ⟨hb.2.2.1, by rw [hb.2.2.2, hb.2.1]⟩), pre,
          if_neg (by omega), if_pos hb.2.1, if_pos ⟨hb.2.2.1, hb.2.2.2⟩, if_neg (by omega), p1]
      · intro m' x l1 l2 hne
        rw [if_neg]
        rw [inj (by omega) (by omega) h2 h3]
        exact fun h => hne h.2.2.1.symm
    · rw [forRange_apply _ k (c.idx jF m n) (fun m' x => if (k = .dr ∨ k = .dz) ∧ c.idx jF m n = c.idx (c.ns - 1) m' n' then x * (1 + 2 * PCtx.pedestal) else x)
        (fun m' s => scaleBoth_apply _ _ s k _), forRange_none]
      · rw [pre]
        by_cases hn : n' = n
        · by_cases hk : (k = .dr ∨ k = .dz) ∧ jF = c.ns - 1
          · have hm : m ≤ 1 := by
              by_contra hh
              exact hb ⟨by omega, hn, hk⟩
            rw [if_pos ⟨hn, hk.1, hk.2, hm⟩, if_pos hn, if_pos hk, if_pos hm]
          · rw [if_neg (fun h => hk ⟨h.2.1, h.2.2.1⟩), if_pos hn, if_neg hk]
        · rw [if_neg (fun h => hn h.1), if_neg hn]
      · intro m' x l1 l2
        rw [if_neg]
        rw [inj (by omega) (by omega) h2 h3]
        exact fun h => hb ⟨by omega, h.2.2.2.symm, h.1, h.2.1⟩
  have loop : forRange 0 (c.s.ntor + 1) (fun n a =>
      forRange 2 c.s.mpol (fun m a => PCtx.scaleBoth (c.idx (c.ns - 1) m n) (1 + 2 * PCtx.pedestal) a)
        (PCtx.scaleBoth (c.idx (c.ns - 1) 1 n) (1 + PCtx.pedestal) (PCtx.scaleBoth (c.idx (c.ns - 1) 0 n) (1 + PCtx.pedestal) a))) a k (c.idx jF m n)
      = if (k = .dr ∨ k = .dz) ∧ jF = c.ns - 1 then a k (c.idx jF m n) * (if m ≤ 1 then 1.05 else 1.1) else a k (c.idx jF m n) := by
    have := forRange_inv (lo := 0) (hi := c.s.ntor + 1) (by omega) (fun n a =>
      forRange 2 c.s.mpol (fun m a => PCtx.scaleBoth (c.idx (c.ns - 1) m n) (1 + 2 * PCtx.pedestal) a)
        (PCtx.scaleBoth (c.idx (c.ns - 1) 1 n) (1 + PCtx.pedestal) (PCtx.scaleBoth (c.idx (c.ns - 1) 0 n) (1 + PCtx.pedestal) a))) a
      (fun n' t => t k (c.idx jF m n) = if n < n' then (if (k = .dr ∨ k = .dz) ∧ jF = c.ns - 1 then a k (c.idx jF m n) * (if m ≤ 1 then 1.05 else 1.1) else a k (c.idx jF m n))
        else a k (c.idx jF m n)) (by beta_reduce; rw [if_neg (by omega)])
      (by
        intro n' t l1 l2 ih
        beta_reduce at ih ⊢
        rw [body n' l1 (by omega) t, ih]
        by_cases hn : n' = n
        · subst hn
          rw [if_pos rfl, if_neg (lt_irrefl _), if_pos (show n' < n' + 1 by omega)]
        · rw [if_neg hn]
          refine if_congr (by omega) rfl rfl)
    rw [if_pos (by omega)] at this
    exact this
  unfold PCtx.edge
  rw [if_pos hmax]
  simp only []
  rw [put_apply, i00]
  simp only [inj (le_refl (0 : Int)) (show 0 < c.s.mpol by omega) (le_refl (0 : Int)) (show 0 ≤ c.s.ntor by omega)]
  unfold edgeFactor
  by_cases hz : k = .dz ∧ m = 0 ∧ n = 0
  · by_cases hj : jF = c.ns - 1
    · rw [if_pos ⟨hz.1, hj, hz.2.1, hz.2.2⟩, if_pos ⟨Or.inr hz.1, hj⟩, if_pos hz]
      obtain ⟨rfl, rfl, rfl⟩ := hz
      subst hj
      rw [loop, if_pos ⟨Or.inr rfl, rfl⟩, if_pos (by omega)]
      unfold PCtx.multFact PCtx.pedestal
      norm_num
      ring
    · rw [if_neg (fun h => hj h.2.1), if_neg (fun h => hj h.2), loop, if_neg (fun h => hj h.2)]
  · rw [if_neg (fun h => hz ⟨h.1, h.2.2.1, h.2.2.2⟩), loop]
    simp only [hz, if_false]

/-- the coordinate which enters the equation of R and that of Z -/
abbrev Pair := Side → GCoord

/-- the elements of the assembled matrix -/
theorem assemble_eq (h : Holds c G) {S : Pair} {x : Side → Coord} (hx : ∀ σ, HoldsX c G (x σ) (S σ)) (g : GoodR c.r c.ns)
    (hm2 : 2 ≤ c.s.mpol) (hns : 3 ≤ c.ns) (lfreeb vacuum : Bool) (oldE : Side → Ent → Int → ℝ) (old : Arr → Int → ℝ) {jF m n : Int}
    (j0 : c.r.nsMinF ≤ jF) (j1 : jF < c.r.nsMaxF) (j2 : jMinOf m ≤ jF) (j3 : jF < jMaxOf c.ns lfreeb vacuum)
    (m0 : 0 ≤ m) (m1 : m < c.s.mpol) (n0 : 0 ≤ n) (n1 : n ≤ c.s.ntor) (σ : Side) :
    let A := c.assemble lfreeb vacuum (c.computePreconditioningMatrix (x .R) (oldE .R)) (c.computePreconditioningMatrix (x .Z) (oldE .Z)) old
    (jF < c.ns - 1 → A σ.sup (c.idx jF m n) = -G.q (S σ) m n jF) ∧
    (0 < jF → A σ.sub (c.idx jF m n) = -G.q (S σ) m n (jF - 1)) ∧
    A σ.diag (c.idx jF m n) = -((if 0 < jF then G.r (S σ) m n (jF - 1) else 0) + (if jF < c.ns - 1 then G.p (S σ) m n jF else 0)
      + (if jF = 1 ∧ m = 1 then G.q (S σ) m n 0 else 0)) * (if jF = c.ns - 1 then edgeFactor c.deltaS σ.diag m n else 1) := by
  intro A
  have g1 := g.minH
  have g2 := g.maxH
  have g3 := g.minF1
  have g4 := g.maxF1
  have g5 := g.min0
  have g6 := g.maxns
  -- before the edge
  have pre : ∀ k, forRange c.r.nsMinF (min c.r.nsMaxF (jMaxOf c.ns lfreeb vacuum)) (fun jF a => forRange 0 c.s.mpol (fun m a => forRange 0 (c.s.ntor + 1) (fun n a =>
      c.entry (c.computePreconditioningMatrix (x .R) (oldE .R)) (c.computePreconditioningMatrix (x .Z) (oldE .Z)) jF m n a) a) a) old k (c.idx jF m n)
      = entryVal c (c.computePreconditioningMatrix (x .R) (oldE .R)) (c.computePreconditioningMatrix (x .Z) (oldE .Z)) jF m n (fun k => old k (c.idx jF m n)) k := by
    intro k
    have := congrFun (grid3 (lo := c.r.nsMinF) (hi := min c.r.nsMaxF (jMaxOf c.ns lfreeb vacuum)) (j0 := c.r.nsMinF) (mpol := c.s.mpol) (ntor := c.s.ntor)
      (mlo := 0) (mhi := c.s.mpol) (nlo := 0) (nhi := c.s.ntor + 1) le_rfl le_rfl le_rfl le_rfl _
      (fun j m n v => entryVal c (c.computePreconditioningMatrix (x .R) (oldE .R)) (c.computePreconditioningMatrix (x .Z) (oldE .Z)) j m n v)
      (fun j m n s i => entry_apply _ _ j m n s i) old jF m n m0 m1 n0 n1) k
    rw [if_pos ⟨⟨j0, lt_min j1 j3⟩, ⟨m0, m1⟩, n0, by omega⟩] at this
    exact this
  have post : ∀ k, A k (c.idx jF m n) = (if (k = .dr ∨ k = .dz) ∧ jF = c.ns - 1 then edgeFactor c.deltaS k m n else 1)
      * entryVal c (c.computePreconditioningMatrix (x .R) (oldE .R)) (c.computePreconditioningMatrix (x .Z) (oldE .Z)) jF m n (fun k => old k (c.idx jF m n)) k := by
    intro k
    have hA : A = c.edge _ := rfl
    rw [hA]
    by_cases he : c.r.nsMaxF = c.ns
    · rw [edge_apply hm2 he _ m0 m1 n0 n1, pre k]
      split
      · ring
      · ring
    · rw [if_neg (by rintro ⟨-, h⟩; omega), one_mul, ← pre k]
      unfold PCtx.edge
      rw [if_neg he]
  have off (σ : Side) (n' : Int) {j : Int} (a : c.r.nsMinH ≤ j) (b : j < c.r.nsMaxH) := mat_off (n := n') h (hx σ) g (oldE σ) (m := m) m0 a b
  have dia (σ : Side) := mat_diag (n := n) h (hx σ) g (oldE σ) (m := m) m0 j0 j1
  have gd : jF ≥ jMinOf m := j2
  refine ⟨fun hj => ?_, fun hj => ?_, ?_⟩
  · rw [post, if_neg (by cases σ <;> simp [Side.sup]), one_mul]
    unfold entryVal
    simp only [gd, if_true]
    cases σ <;> simp only [Side.sup] <;> rw [if_pos (show jF < c.r.nsMaxH by omega), off _ n (by omega) (by omega)]
  · rw [post, if_neg (by cases σ <;> simp [Side.sub]), one_mul]
    unfold entryVal
    simp only [gd, if_true]
    cases σ <;> simp only [Side.sub] <;> rw [if_pos (show jF > 0 from hj), off _ n (by omega) (by omega)]
  · rw [post, mul_comm]
    congr 1
    · unfold entryVal
      simp only [gd, if_true]
      have e1 : (if jF = 1 ∧ m = 1 then G.q (S σ) m n 0 else 0) = if jF = 1 ∧ m = 1 then G.q (S σ) m n (jF - 1) else 0 := by
        split
        · rename_i hh; rw [hh.1]; rfl
        · rfl
      rw [e1]
      cases σ <;> simp only [Side.diag] <;> rw [dia, h.ns]
      · by_cases hh : jF = 1 ∧ m = 1
        · simp only [if_pos hh]
          rw [off _ n (by omega) (by omega)]; ring
        · simp only [if_neg hh]; ring
      · by_cases hh : jF = 1 ∧ m = 1
        · simp only [if_pos hh]
          rw [off _ n (by omega) (by omega)]; ring
        · simp only [if_neg hh]; ring
    · cases σ <;> simp [Side.diag]

end Verif.Radial
