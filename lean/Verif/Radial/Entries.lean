import Verif.Radial.Eq

/-! # Closed forms of the assembled matrix -/
namespace Verif.Radial
open Verif Finset

/-- ranges as the radial partitioning makes them -/
structure GoodR (r : Partition.Ranges) (ns : Int) : Prop where
  minH : r.nsMinH = r.nsMinF1
  maxH : r.nsMaxH = r.nsMaxF1 - 1
  minF1 : r.nsMinF1 = max 0 (r.nsMinF - 1)
  maxF1 : r.nsMaxF1 = min ns (r.nsMaxF + 1)
  min0 : 0 ≤ r.nsMinF
  maxns : r.nsMaxF ≤ ns

theorem assign_loop {C : Type} {lo hi j o : Int} (h0 : lo ≤ j) (h1 : j < hi) (f : Int → (C → Int → ℝ) → C → Int → ℝ) (k : C) (v : Int → ℝ)
    (hf : ∀ jH e, f jH e k (j - o) = if jH = j then v jH else e k (j - o)) (e : C → Int → ℝ) : forRange lo hi f e k (j - o) = v j := by
  rw [forRange_apply f k (j - o) (fun jH x => if jH = j then v jH else x) hf e, forRange_only h0 h1]
  · rw [if_pos rfl]
  · intro i s _ _ hne
    rw [if_neg hne]

theorem skip_loop {C : Type} {lo hi i : Int} (f : Int → (C → Int → ℝ) → C → Int → ℝ) (k : C)
    (hf : ∀ jH e, f jH e k i = e k i) (e : C → Int → ℝ) : forRange lo hi f e k i = e k i := by
  rw [forRange_apply f k i (fun _ x => x) hf e, forRange_none]
  intros; rfl

variable {c : PCtx} {G : Glob}

theorem off_eq (x : Coord) (old : Ent → Int → ℝ) {j : Int} (j0 : c.r.nsMinH ≤ j) (j1 : j < c.r.nsMaxH) :
    let M := c.computePreconditioningMatrix x old
    let a := c.accumulate x
    let i := j - c.r.nsMinH
    M (.axm false) i = -a .ax0 i ∧ M (.axm true) i = a .ax1 i * c.f.sm i * c.f.sp i ∧
    M (.bxm false) i = a .bx0 i ∧ M (.bxm true) i = a .bx0 i * c.f.sm i * c.f.sp i := by
  intro M a i
  have outer (k : Ent) (hk : ∀ b, k ≠ .axd b ∧ k ≠ .bxd b) (hc : k ≠ .cxd) : M k i = forRange c.r.nsMinH c.r.nsMaxH (fun jH e => c.offDiagonal a jH e) old k i := by
    refine skip_loop _ k ?_ _
    intro jF e
    unfold PCtx.diagonal
    simp only [put_apply, (hk true).1, (hk true).2, (hk false).1, (hk false).2, hc, false_and, if_false]
  refine ⟨?_, ?_, ?_, ?_⟩ <;> rw [outer _ (by intro b; simp) (by simp)]
  · refine assign_loop j0 j1 _ _ (fun jH => -a .ax0 (jH - c.r.nsMinH)) ?_ _
    intro jH e
    unfold PCtx.offDiagonal
    simp only [put_apply, reduceCtorEq, Ent.axm.injEq, Bool.false_eq_true, false_and, if_false, true_and, show (j - c.r.nsMinH = jH - c.r.nsMinH) ↔ jH = j by omega]
  · refine assign_loop j0 j1 _ _ (fun jH => a .ax1 (jH - c.r.nsMinH) * c.f.sm (jH - c.r.nsMinH) * c.f.sp (jH - c.r.nsMinH)) ?_ _
    intro jH e
    unfold PCtx.offDiagonal
    simp only [put_apply, reduceCtorEq, false_and, if_false, true_and, Ent.axm.injEq, Bool.true_eq_false, show (j - c.r.nsMinH = jH - c.r.nsMinH) ↔ jH = j by omega]
  · refine assign_loop j0 j1 _ _ (fun jH => a .bx0 (jH - c.r.nsMinH)) ?_ _
    intro jH e
    unfold PCtx.offDiagonal
    simp only [put_apply, reduceCtorEq, Ent.bxm.injEq, Bool.false_eq_true, false_and, if_false, true_and, show (j - c.r.nsMinH = jH - c.r.nsMinH) ↔ jH = j by omega]
  · refine assign_loop j0 j1 _ _ (fun jH => a .bx0 (jH - c.r.nsMinH) * c.f.sm (jH - c.r.nsMinH) * c.f.sp (jH - c.r.nsMinH)) ?_ _
    intro jH e
    unfold PCtx.offDiagonal
    simp only [put_apply, reduceCtorEq, false_and, if_false, true_and, Ent.bxm.injEq, Bool.true_eq_false, show (j - c.r.nsMinH = jH - c.r.nsMinH) ↔ jH = j by omega]

theorem diag_eq (x : Coord) (old : Ent → Int → ℝ) {j : Int} (j0 : c.r.nsMinF ≤ j) (j1 : j < c.r.nsMaxF) :
    let M := c.computePreconditioningMatrix x old
    let a := c.accumulate x
    let i := j - c.r.nsMinF
    let u := j - 1 - c.r.nsMinH
    let v := j - c.r.nsMinH
    M (.axd false) i = (if j > 0 then a .ax0 u else 0) + (if j < c.ns - 1 then a .ax0 v else 0) ∧
    M (.axd true) i = (if j > 0 then a .ax2 u * c.f.sm u * c.f.sm u else 0) + (if j < c.ns - 1 then a .ax3 v * c.f.sp v * c.f.sp v else 0) ∧
    M (.bxd false) i = (if j > 0 then a .bx1 u else 0) + (if j < c.ns - 1 then a .bx2 v else 0) ∧
    M (.bxd true) i = (if j > 0 then a .bx1 u * c.f.sm u * c.f.sm u else 0) + (if j < c.ns - 1 then a .bx2 v * c.f.sp v * c.f.sp v else 0) ∧
    M .cxd i = (if j > 0 then a .cx u else 0) + (if j < c.ns - 1 then a .cx v else 0) := by
  intro M a i u v
  have key (k : Ent) (w : Int → ℝ) (hw : ∀ jF e, c.diagonal a jF e k i = if jF = j then w jF else e k i) : M k i = w j :=
    assign_loop j0 j1 _ k w hw _
  refine ⟨key _ (fun j => (if j > 0 then a .ax0 (j - 1 - c.r.nsMinH) else 0) + (if j < c.ns - 1 then a .ax0 (j - c.r.nsMinH) else 0)) ?_,
    key _ (fun j => (if j > 0 then a .ax2 (j - 1 - c.r.nsMinH) * c.f.sm (j - 1 - c.r.nsMinH) * c.f.sm (j - 1 - c.r.nsMinH) else 0)
      + (if j < c.ns - 1 then a .ax3 (j - c.r.nsMinH) * c.f.sp (j - c.r.nsMinH) * c.f.sp (j - c.r.nsMinH) else 0)) ?_,
    key _ (fun j => (if j > 0 then a .bx1 (j - 1 - c.r.nsMinH) else 0) + (if j < c.ns - 1 then a .bx2 (j - c.r.nsMinH) else 0)) ?_,
    key _ (fun j => (if j > 0 then a .bx1 (j - 1 - c.r.nsMinH) * c.f.sm (j - 1 - c.r.nsMinH) * c.f.sm (j - 1 - c.r.nsMinH) else 0)
      + (if j < c.ns - 1 then a .bx2 (j - c.r.nsMinH) * c.f.sp (j - c.r.nsMinH) * c.f.sp (j - c.r.nsMinH) else 0)) ?_,
    key _ (fun j => (if j > 0 then a .cx (j - 1 - c.r.nsMinH) else 0) + (if j < c.ns - 1 then a .cx (j - c.r.nsMinH) else 0)) ?_⟩
  all_goals
    intro jF e
    unfold PCtx.diagonal
    simp only [put_apply, reduceCtorEq, Ent.axd.injEq, Ent.bxd.injEq, Bool.false_eq_true, Bool.true_eq_false, false_and, if_false, true_and, i,
      show (j - c.r.nsMinF = jF - c.r.nsMinF) ↔ jF = j by omega]

/-- off-diagonal elements -/
theorem mat_off (h : Holds c G) {x : Coord} {X : GCoord} (hx : HoldsX c G x X) (g : GoodR c.r c.ns) (old : Ent → Int → ℝ)
    {m n j : Int} (hm : 0 ≤ m) (j0 : c.r.nsMinH ≤ j) (j1 : j < c.r.nsMaxH) :
    c.computePreconditioningMatrix x old (.axm (decide (m.tmod 2 = 1))) (j - c.r.nsMinH)
      + c.computePreconditioningMatrix x old (.bxm (decide (m.tmod 2 = 1))) (j - c.r.nsMinH) * m * m = G.q X m n j := by
  obtain ⟨e1, e2, e3, e4⟩ := off_eq x old j0 j1
  obtain ⟨-, s1, s2⟩ := h.rad j j0 j1
  simp only [accumulate_eq h hx g.minH g.maxH j0 j1, s1, s2] at e1 e2 e3 e4
  rw [Int.tmod_eq_emod_of_nonneg hm, Glob.q_eq]
  by_cases p : m % 2 = 1
  · simp only [p, decide_true, e2, e4]
    simp only [sum_mul, ← sum_add_distrib]
    refine sum_congr rfl fun kl _ => ?_
    simp only [Glob.term, Glob.rad0, Glob.rad1, Glob.pol0, Glob.pol1, if_true, Bool.false_eq_true, if_false]
    ring
  · simp only [p, decide_false, e1, e3]
    simp only [sum_mul, ← sum_neg_distrib, ← sum_add_distrib]
    refine sum_congr rfl fun kl _ => ?_
    simp only [Glob.term, Glob.rad0, Glob.rad1, Glob.pol0, Glob.pol1, Bool.false_eq_true, if_false]
    ring

/-- diagonal elements -/
theorem mat_diag (h : Holds c G) {x : Coord} {X : GCoord} (hx : HoldsX c G x X) (g : GoodR c.r c.ns) (old : Ent → Int → ℝ)
    {m n j : Int} (hm : 0 ≤ m) (j0 : c.r.nsMinF ≤ j) (j1 : j < c.r.nsMaxF) :
    c.computePreconditioningMatrix x old (.axd (decide (m.tmod 2 = 1))) (j - c.r.nsMinF)
      + c.computePreconditioningMatrix x old (.bxd (decide (m.tmod 2 = 1))) (j - c.r.nsMinF) * m * m
      + c.computePreconditioningMatrix x old .cxd (j - c.r.nsMinF) * n * c.s.nfp * n * c.s.nfp
    = (if 0 < j then G.r X m n (j - 1) else 0) + (if j < G.ns - 1 then G.p X m n j else 0) := by
  obtain ⟨e1, e2, e3, e4, e5⟩ := diag_eq x old j0 j1
  have g1 := g.minH
  have g2 := g.maxH
  have g3 := g.minF1
  have g4 := g.maxF1
  have g5 := g.min0
  have g6 := g.maxns
  have hn := h.ns
  have hi (hj : 0 < j) : G.r X m n (j - 1) = (if m % 2 = 1 then c.accumulate x .ax2 (j - 1 - c.r.nsMinH) * c.f.sm (j - 1 - c.r.nsMinH) * c.f.sm (j - 1 - c.r.nsMinH)
        + c.accumulate x .bx1 (j - 1 - c.r.nsMinH) * c.f.sm (j - 1 - c.r.nsMinH) * c.f.sm (j - 1 - c.r.nsMinH) * m * m
      else c.accumulate x .ax0 (j - 1 - c.r.nsMinH) + c.accumulate x .bx1 (j - 1 - c.r.nsMinH) * m * m)
      + c.accumulate x .cx (j - 1 - c.r.nsMinH) * n * c.s.nfp * n * c.s.nfp := by
    have i0 : c.r.nsMinH ≤ j - 1 := by omega
    have i1 : j - 1 < c.r.nsMaxH := by omega
    obtain ⟨-, s1, s2⟩ := h.rad (j - 1) i0 i1
    simp only [accumulate_eq h hx g.minH g.maxH i0 i1, s1, s2]
    rw [Glob.r_eq, h.s]
    split
    · rename_i p
      simp only [p, decide_true, sum_mul, ← sum_add_distrib]
      refine sum_congr rfl fun kl _ => ?_
      simp only [Glob.term, Glob.rad0, Glob.rad1, Glob.pol0, Glob.pol1, if_true, Bool.false_eq_true, if_false]
      ring
    · rename_i p
      simp only [p, decide_false, sum_mul, ← sum_add_distrib]
      refine sum_congr rfl fun kl _ => ?_
      simp only [Glob.term, Glob.rad0, Glob.rad1, Glob.pol0, Glob.pol1, Bool.false_eq_true, if_false]
      ring
  have ho (hj : j < c.ns - 1) : G.p X m n j = (if m % 2 = 1 then c.accumulate x .ax3 (j - c.r.nsMinH) * c.f.sp (j - c.r.nsMinH) * c.f.sp (j - c.r.nsMinH)
        + c.accumulate x .bx2 (j - c.r.nsMinH) * c.f.sp (j - c.r.nsMinH) * c.f.sp (j - c.r.nsMinH) * m * m
      else c.accumulate x .ax0 (j - c.r.nsMinH) + c.accumulate x .bx2 (j - c.r.nsMinH) * m * m)
      + c.accumulate x .cx (j - c.r.nsMinH) * n * c.s.nfp * n * c.s.nfp := by
    have i0 : c.r.nsMinH ≤ j := by omega
    have i1 : j < c.r.nsMaxH := by omega
    obtain ⟨-, s1, s2⟩ := h.rad j i0 i1
    simp only [accumulate_eq h hx g.minH g.maxH i0 i1, s1, s2]
    rw [Glob.p_eq, h.s]
    split
    · rename_i p
      simp only [p, decide_true, sum_mul, ← sum_add_distrib]
      refine sum_congr rfl fun kl _ => ?_
      simp only [Glob.term, Glob.rad0, Glob.rad1, Glob.pol0, Glob.pol1, if_true, Bool.false_eq_true, if_false]
      ring
    · rename_i p
      simp only [p, decide_false, sum_mul, ← sum_add_distrib]
      refine sum_congr rfl fun kl _ => ?_
      simp only [Glob.term, Glob.rad0, Glob.rad1, Glob.pol0, Glob.pol1, Bool.false_eq_true, if_false]
      ring
  rw [Int.tmod_eq_emod_of_nonneg hm, ← hn]
  have gt (v : ℝ) : (if j > 0 then v else 0) = if 0 < j then v else 0 := rfl
  by_cases p : m % 2 = 1
  · simp only [p, decide_true, if_true, e2, e4, e5] at hi ho ⊢
    by_cases a : 0 < j <;> by_cases b : j < c.ns - 1
    · rw [hi a, ho b]
      simp only [gt, a, b, if_true]; ring
    · rw [hi a]
      simp only [gt, a, b, if_true, if_false]; ring
    · rw [ho b]
      simp only [gt, a, b, if_true, if_false]; ring
    · simp only [gt, a, b, if_false]; ring
  · simp only [p, decide_false, if_false, e1, e3, e5] at hi ho ⊢
    by_cases a : 0 < j <;> by_cases b : j < c.ns - 1
    · rw [hi a, ho b]
      simp only [gt, a, b, if_true]; ring
    · rw [hi a]
      simp only [gt, a, b, if_true, if_false]; ring
    · rw [ho b]
      simp only [gt, a, b, if_true, if_false]; ring
    · simp only [gt, a, b, if_false]; ring

end Verif.Radial
