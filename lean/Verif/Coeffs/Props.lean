import Verif.Coeffs.Lemmas
import Mathlib.Analysis.SpecialFunctions.Pow.Real
import Mathlib.Tactic.Linarith

/-!
# C28 (state vector), C29, C48
-/
namespace Verif.Coeffs
open Verif

/-- mode `(m, n)` belongs to the resolution -/
def Ctx.isMode (x : Ctx) (m n : Int) : Prop := 0 ≤ m ∧ m < x.mpol ∧ 0 ≤ n ∧ n ≤ x.ntor

/-! ## C28 -/

/-- Applying the m=1 constraint with factor 1/2 and undoing it with factor 1 gives back every
    coefficient of every surface, for any limit `jMax` on the surfaces. -/
theorem C28_state_undo (x : Ctx) (hM : 2 ≤ x.mpol) (jMax : Option Int) (s : State) (c : F)
    (j m n : Int) (h : x.isMode m n) :
    m1Constraint x 1 jMax (m1Constraint x (1 / 2) jMax s) c (x.idx j m n) = s c (x.idx j m n) := by
  have h1 := m1_col x hM 1 jMax (m1Constraint x (1 / 2) jMax s) j m n h.1 h.2.1 h.2.2.1 h.2.2.2
  have h2 := m1_col x hM (1 / 2) jMax s j m n h.1 h.2.1 h.2.2.1 h.2.2.2
  rw [h2] at h1
  have := congrFun h1 c
  beta_reduce at this
  rw [this]
  by_cases e : (x.nsMin ≤ j ∧ j < x.m1Max jMax) ∧ m = 1
  · rw [if_pos e, if_pos e]; exact congrFun (mixF_undo x (1 / 2) 1 (by norm_num) _) c
  · rw [if_neg e, if_neg e]

/-- In the other order as well (state → physical → state). -/
theorem C28_state_redo (x : Ctx) (hM : 2 ≤ x.mpol) (jMax : Option Int) (s : State) (c : F)
    (j m n : Int) (h : x.isMode m n) :
    m1Constraint x (1 / 2) jMax (m1Constraint x 1 jMax s) c (x.idx j m n) = s c (x.idx j m n) := by
  have h1 := m1_col x hM (1 / 2) jMax (m1Constraint x 1 jMax s) j m n h.1 h.2.1 h.2.2.1 h.2.2.2
  have h2 := m1_col x hM 1 jMax s j m n h.1 h.2.1 h.2.2.1 h.2.2.2
  rw [h2] at h1
  have := congrFun h1 c
  beta_reduce at this
  rw [this]
  by_cases e : (x.nsMin ≤ j ∧ j < x.m1Max jMax) ∧ m = 1
  · rw [if_pos e, if_pos e]; exact congrFun (mixF_undo x 1 (1 / 2) (by norm_num) _) c
  · rw [if_neg e, if_neg e]

/-- All other modes, all surfaces outside the range, and all arrays except `rss, zcs, rsc, zcc` are
    left alone. -/
theorem C28_state_others (x : Ctx) (hM : 2 ≤ x.mpol) (f : ℝ) (jMax : Option Int) (s : State) (c : F)
    (j m n : Int) (h : x.isMode m n)
    (ho : m ≠ 1 ∨ j < x.nsMin ∨ x.nsMax ≤ j ∨ (∃ J, jMax = some J ∧ J ≤ j) ∨
      c ∉ [F.rss, F.zcs, F.rsc, F.zcc]) :
    m1Constraint x f jMax s c (x.idx j m n) = s c (x.idx j m n) := by
  have h1 := congrFun (m1_col x hM f jMax s j m n h.1 h.2.1 h.2.2.1 h.2.2.2) c
  beta_reduce at h1
  rw [h1]
  by_cases e : (x.nsMin ≤ j ∧ j < x.m1Max jMax) ∧ m = 1
  · rw [if_pos e]
    rcases ho with ho | ho | ho | ⟨J, hJ, ho⟩ | ho
    · exact absurd e.2 ho
    · omega
    · exfalso
      have hle : x.m1Max jMax ≤ x.nsMax := by
        unfold Ctx.m1Max; cases jMax
        · exact le_rfl
        · exact min_le_right _ _
      omega
    · exfalso
      have hle : x.m1Max jMax ≤ J := by
        rw [hJ]; exact min_le_left _ _
      omega
    · cases c <;> simp [mixF] at ho ⊢
  · rw [if_neg e]

/-- On the surfaces in range the transformed `m = 1` coefficients are the scaled sum and difference;
    the constraint `R_ss = Z_cs` becomes `Z_cs = 0`. -/
theorem C28_state_constraint (x : Ctx) (hM : 2 ≤ x.mpol) (jMax : Option Int) (s : State) (f : ℝ)
    (j n : Int) (h : x.isMode 1 n) (hj : x.nsMin ≤ j) (hj' : j < x.m1Max jMax) (h3 : x.lthreed = true) :
    m1Constraint x f jMax s .rss (x.idx j 1 n) = (s .rss (x.idx j 1 n) + s .zcs (x.idx j 1 n)) * f ∧
    m1Constraint x f jMax s .zcs (x.idx j 1 n) = (s .rss (x.idx j 1 n) - s .zcs (x.idx j 1 n)) * f := by
  have h1 := m1_col x hM f jMax s j 1 n h.1 h.2.1 h.2.2.1 h.2.2.2
  rw [if_pos ⟨⟨hj, hj'⟩, rfl⟩] at h1
  exact ⟨by simpa [mixF, h3] using congrFun h1 .rss, by simpa [mixF, h3] using congrFun h1 .zcs⟩

/-- On the forces the factor is `1/√2` (`ideal_mhd_model.cc:1000`); there the transformation is a
    rotation with reflection: it keeps the sum of squares that enters the residual and undoes itself. -/
theorem C28_force_isometry (x : Ctx) (hM : 2 ≤ x.mpol) (jMax : Option Int) (s : State)
    (j m n : Int) (h : x.isMode m n) :
    let t := m1Constraint x (1 / Real.sqrt 2) jMax s
    (t .rss (x.idx j m n)) ^ 2 + (t .zcs (x.idx j m n)) ^ 2
        = (s .rss (x.idx j m n)) ^ 2 + (s .zcs (x.idx j m n)) ^ 2 ∧
    (t .rsc (x.idx j m n)) ^ 2 + (t .zcc (x.idx j m n)) ^ 2
        = (s .rsc (x.idx j m n)) ^ 2 + (s .zcc (x.idx j m n)) ^ 2 ∧
    ∀ c, m1Constraint x (1 / Real.sqrt 2) jMax t c (x.idx j m n) = s c (x.idx j m n) := by
  have hs : Real.sqrt 2 ^ 2 = 2 := Real.sq_sqrt (by norm_num)
  have hne : Real.sqrt 2 ≠ 0 := by positivity
  have hf : 2 * (1 / Real.sqrt 2) * (1 / Real.sqrt 2) = 1 := by field_simp; linarith
  intro t
  have h1 := m1_col x hM (1 / Real.sqrt 2) jMax s j m n h.1 h.2.1 h.2.2.1 h.2.2.2
  have h2 := m1_col x hM (1 / Real.sqrt 2) jMax t j m n h.1 h.2.1 h.2.2.1 h.2.2.2
  rw [h1] at h2
  have ht : t = m1Constraint x (1 / Real.sqrt 2) jMax s := rfl
  clear_value t
  generalize 1 / Real.sqrt 2 = f at *
  by_cases e : (x.nsMin ≤ j ∧ j < x.m1Max jMax) ∧ m = 1
  · rw [if_pos e] at h1 h2
    have g1 := congrFun h1 .rss; have g2 := congrFun h1 .zcs
    have g3 := congrFun h1 .rsc; have g4 := congrFun h1 .zcc
    simp only [mixF] at g1 g2 g3 g4
    rw [if_pos e, mixF_undo x f f hf] at h2
    refine ⟨?_, ?_, fun c => congrFun h2 c⟩
    · rw [ht, g1, g2]
      split
      · linear_combination (s .rss (x.idx j m n) ^ 2 + s .zcs (x.idx j m n) ^ 2) * hf
      · rfl
    · rw [ht, g3, g4]
      split
      · linear_combination (s .rsc (x.idx j m n) ^ 2 + s .zcc (x.idx j m n) ^ 2) * hf
      · rfl
  · rw [if_neg e] at h1 h2
    have g1 := congrFun h1 .rss; have g2 := congrFun h1 .zcs
    have g3 := congrFun h1 .rsc; have g4 := congrFun h1 .zcc
    beta_reduce at g1 g2 g3 g4
    refine ⟨?_, ?_, fun c => ?_⟩
    · rw [ht, g1, g2]
    · rw [ht, g3, g4]
    · rw [if_neg e] at h2
      exact congrFun h2 c

/-- `mpol ≥ 2` is needed: with `mpol = 1` the "m = 1" position of a surface is the `m = 0` position of
    the next one. -/
theorem C28_needs_mpol : (⟨1, 1, false, 0, 3, 3, 0, 3⟩ : Ctx).idx 0 1 0 = (⟨1, 1, false, 0, 3, 3, 0, 3⟩ : Ctx).idx 1 0 0 := by
  decide

/-- a thread's range with an inner surface, three-dimensional and asymmetric -/
example : ∃ x : Ctx, 2 ≤ x.mpol ∧ x.isMode 1 1 ∧ x.nsMin ≤ 3 ∧ 3 < x.m1Max (some 4) ∧ x.lthreed = true
    ∧ x.lasym = true := by
  refine ⟨⟨3, 2, true, 2, 6, 11, 2, 6⟩, ?_⟩
  simp [Ctx.isMode, Ctx.m1Max, Ctx.lthreed]

/-! ## C29 -/

/-- what the initial guess should be, for the surface with normalised flux `t`: a convex combination of
    axis and boundary for `m = 0`, the boundary times `t^(m/2)` for `m > 0`; `N` is the norm of the
    basis function, `B` the boundary and `A` the axis coefficient -/
noncomputable def guess (t N B A : ℝ) (m : Int) : ℝ :=
  if m = 0 then (t * B + (1 - t) * A) / N else t ^ ((m : ℝ) / 2) * B / N

/-- On every surface of every thread, and for every array of R and Z that exists, the initial guess is
    the interpolation between axis and boundary. The right side does not mention the thread's range. -/
theorem C29_interpolation (x : Ctx) (h1 : x.nsMin = x.nsMinF1) (h2 : x.nsMax = x.nsMaxF1)
    (hns : 2 ≤ x.ns) (h0 : 0 ≤ x.nsMinF1)
    (ms ns : Int → ℝ) (b : Boundary.Arrays) (ax : Axis) (s : State) (j m n : Int)
    (hj : x.nsMinF1 ≤ j) (hj' : j < x.nsMaxF1) (h : x.isMode m n) (c : F) (bc : Boundary.B)
    (hb : bdy c = some bc) (hc : x.has c = true) :
    interpFromBoundaryAndAxis x ms ns b ax (sqrtSF x) s c (x.idx j m n)
      = guess ((j : ℝ) / (x.ns - 1)) (ms m * ns n) (b bc (m * (x.ntor + 1) + n)) (axisPart ax c n) m := by
  rw [interp_col x ms ns b ax _ s j m n (by omega) (by omega) h.1 h.2.1 h.2.2.1 h.2.2.2,
    sqrtSF_sq x hns j (by omega)]
  have hpos : (0 : ℝ) ≤ (j : ℝ) / (x.ns - 1) := by
    have a1 : (0 : ℝ) ≤ j := by exact_mod_cast h0.trans hj
    have a2 : (2 : ℝ) ≤ x.ns := by exact_mod_cast hns
    exact div_nonneg a1 (by linarith)
  unfold interpVal guess
  rw [hb]
  simp only [hc, if_true]
  split
  · rw [Real.mul_self_sqrt hpos]
  · congr 2
    obtain ⟨k, hk⟩ := Int.eq_ofNat_of_zero_le h.1
    subst hk
    simp only [Int.toNat_natCast, Int.cast_natCast]
    rw [Real.sqrt_eq_rpow, ← Real.rpow_natCast, ← Real.rpow_mul hpos]
    congr 1; ring

/-- On the last surface it is the boundary. -/
theorem C29_boundary (x : Ctx) (h1 : x.nsMin = x.nsMinF1) (h2 : x.nsMax = x.nsMaxF1)
    (hns : 2 ≤ x.ns) (h0 : 0 ≤ x.nsMinF1) (hl : x.nsMaxF1 = x.ns) (hne : x.nsMinF1 < x.ns)
    (ms ns : Int → ℝ) (b : Boundary.Arrays) (ax : Axis) (s : State) (m n : Int)
    (h : x.isMode m n) (c : F) (bc : Boundary.B) (hb : bdy c = some bc) (hc : x.has c = true) :
    interpFromBoundaryAndAxis x ms ns b ax (sqrtSF x) s c (x.idx (x.ns - 1) m n)
      = b bc (m * (x.ntor + 1) + n) / (ms m * ns n) := by
  rw [C29_interpolation x h1 h2 hns h0 ms ns b ax s (x.ns - 1) m n (by omega) (by omega) h c bc hb hc]
  have a2 : (2 : ℝ) ≤ x.ns := by exact_mod_cast hns
  have hq : (((x.ns - 1 : Int) : ℝ)) / (x.ns - 1) = 1 := by
    push_cast; exact div_self (by linarith)
  rw [hq]
  unfold guess
  split
  · ring
  · rw [Real.one_rpow, one_mul]

/-- On the axis it is the prescribed axis, with no `m > 0` content. -/
theorem C29_axis (x : Ctx) (h1 : x.nsMin = x.nsMinF1) (h2 : x.nsMax = x.nsMaxF1)
    (hns : 2 ≤ x.ns) (h0 : x.nsMinF1 = 0) (hne : 0 < x.nsMaxF1)
    (ms ns : Int → ℝ) (b : Boundary.Arrays) (ax : Axis) (s : State) (m n : Int)
    (h : x.isMode m n) (c : F) (bc : Boundary.B) (hb : bdy c = some bc) (hc : x.has c = true) :
    interpFromBoundaryAndAxis x ms ns b ax (sqrtSF x) s c (x.idx 0 m n)
      = if m = 0 then axisPart ax c n / (ms m * ns n) else 0 := by
  rw [C29_interpolation x h1 h2 hns (by omega) ms ns b ax s 0 m n (by omega) (by omega) h c bc hb hc]
  unfold guess
  split
  · simp
  · rename_i hm
    have hm0 : (m : ℝ) / 2 ≠ 0 := by
      have : (m : ℝ) ≠ 0 := by exact_mod_cast hm
      exact div_ne_zero this (by norm_num)
    rw [Int.cast_zero, zero_div, Real.zero_rpow hm0]; ring

/-- Lambda is not touched. -/
theorem C29_lambda (x : Ctx) (ms ns : Int → ℝ) (b : Boundary.Arrays) (ax : Axis) (q : Int → ℝ) (s : State)
    (j m n : Int) (hj : x.nsMin ≤ j) (hj' : j < x.nsMax) (h : x.isMode m n) (c : F) (hc : isLambda c = true) :
    interpFromBoundaryAndAxis x ms ns b ax q s c (x.idx j m n) = s c (x.idx j m n) := by
  rw [interp_col x ms ns b ax _ s j m n hj hj' h.1 h.2.1 h.2.2.1 h.2.2.2]
  cases c <;> simp [isLambda] at hc <;> rfl

/-- an inner thread and the last thread of a run with eleven surfaces -/
example : ∃ x y : Ctx, x.nsMin = x.nsMinF1 ∧ x.nsMax = x.nsMaxF1 ∧ 2 ≤ x.ns ∧ 0 < x.nsMinF1 ∧ x.nsMaxF1 < x.ns ∧
    y.nsMin = y.nsMinF1 ∧ y.nsMax = y.nsMaxF1 ∧ y.ns = x.ns ∧ y.nsMaxF1 = y.ns ∧ x.isMode 2 1 ∧ x.has .rcs = true :=
  ⟨⟨3, 2, true, 3, 6, 11, 3, 6⟩, ⟨3, 2, true, 7, 11, 11, 7, 11⟩, by simp [Ctx.isMode, Ctx.has, Ctx.lthreed]⟩

/-! ## C48 -/

/-- The mask zeroes the R and Z coefficients with `m ≥ mpolGeom` or `n > ntorGeom` on the surfaces held
    by the thread, and changes nothing else; lambda in particular. -/
theorem C48_mask_exact (x : Ctx) (mg ng : Int) (s : State) (j m n : Int) (h : x.isMode m n)
    (hj : x.nsMin ≤ j) (hj' : j < x.nsMax) (hF : x.nsMaxF1 = x.ns → x.nsMax ≤ x.ns) (c : F) (hc : x.has c = true) :
    maskGeometryAbove x mg ng s c (x.idx j m n)
      = if (mg ≤ m ∨ ng < n) ∧ c ∉ [F.lsc, F.lcs, F.lcc, F.lss] then 0 else s c (x.idx j m n) := by
  have hb : j < x.jMaxIncludingBoundary := by
    unfold Ctx.jMaxIncludingBoundary; split
    · rename_i e; have := hF e; omega
    · exact hj'
  rw [mask_col x mg ng s j m n h.1 h.2.1 h.2.2.1 h.2.2.2]
  have hl : isLambda c = false ↔ c ∉ [F.lsc, F.lcs, F.lcc, F.lss] := by
    cases c <;> simp [isLambda]
  simp only [hj, hb, hc, hl, true_and]

/-- Masking twice is masking once. -/
theorem C48_mask_idempotent (x : Ctx) (mg ng : Int) (s : State) (j m n : Int) (h : x.isMode m n) (c : F) :
    maskGeometryAbove x mg ng (maskGeometryAbove x mg ng s) c (x.idx j m n)
      = maskGeometryAbove x mg ng s c (x.idx j m n) := by
  rw [mask_col x mg ng _ j m n h.1 h.2.1 h.2.2.1 h.2.2.2, mask_col x mg ng s j m n h.1 h.2.1 h.2.2.1 h.2.2.2]
  split <;> rfl

/-- With the default settings (`-1`, `-1`), and with any setting not below the full resolution, the step
    in the solver does nothing. -/
theorem C48_default_noop (x : Ctx) (mg ng : Int) (hm : mg < 1 ∨ x.mpol ≤ mg) (hn : ng < 0 ∨ x.ntor ≤ ng)
    (s : State) : maskStep x mg ng s = s := by
  unfold maskStep
  have h1 : mpolGeometry x.mpol mg = x.mpol := by
    unfold mpolGeometry; split
    · rfl
    · omega
  have h2 : ntorGeometry x.ntor ng = x.ntor := by
    unfold ntorGeometry; split
    · rfl
    · omega
  simp [h1, h2]

/-- With a setting below the full resolution the step masks exactly what was asked for. -/
theorem C48_step_exact (x : Ctx) (mg ng : Int) (hm : 1 ≤ mg) (hm' : mg ≤ x.mpol) (hn : 0 ≤ ng)
    (hn' : ng ≤ x.ntor) (s : State) (j m n : Int) (h : x.isMode m n)
    (hj : x.nsMin ≤ j) (hj' : j < x.nsMax) (hF : x.nsMaxF1 = x.ns → x.nsMax ≤ x.ns) (c : F)
    (hc : x.has c = true) :
    maskStep x mg ng s c (x.idx j m n)
      = if (mg ≤ m ∨ ng < n) ∧ c ∉ [F.lsc, F.lcs, F.lcc, F.lss] then 0 else s c (x.idx j m n) := by
  have h1 : mpolGeometry x.mpol mg = mg := by unfold mpolGeometry; rw [if_neg]; omega
  have h2 : ntorGeometry x.ntor ng = ng := by unfold ntorGeometry; rw [if_neg]; omega
  unfold maskStep
  simp only [h1, h2]
  split
  · exact C48_mask_exact x mg ng s j m n h hj hj' hF c hc
  · rename_i e
    obtain ⟨_, _, _, _⟩ := h
    rw [if_neg]; rintro ⟨h', _⟩; omega

/-- a reduced geometry resolution on the last thread -/
example : ∃ x : Ctx, x.isMode 2 0 ∧ x.nsMin ≤ 9 ∧ 9 < x.nsMax ∧ (x.nsMaxF1 = x.ns → x.nsMax ≤ x.ns) ∧
    x.has .rcc = true ∧ mpolGeometry x.mpol 2 < x.mpol :=
  ⟨⟨3, 2, false, 7, 11, 11, 7, 11⟩, by simp [Ctx.isMode, Ctx.has, mpolGeometry]⟩

end Verif.Coeffs
