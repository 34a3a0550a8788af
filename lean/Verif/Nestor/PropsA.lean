import Verif.Nestor.Backward
import Mathlib.Analysis.Complex.ExponentialBounds

/-!
# C72: the recurrences of the singular integrals compute the integrals

`tInt` and `sInt` (`Integrals.lean`) are the integrals over `[-1, 1]` themselves.
-/
namespace Verif.Nestor
open Verif

/-- **C72**, forward branch: at every point with a positive definite metric, `prepareUpdate` stores in `Tlp`, `Tlm` the
    integrals of `t^l / √Q` exactly, for all `l ≤ mf + nf`. -/
theorem C72_forward (nf mf : Int) (hn : 0 ≤ nf) (hm : 0 ≤ mf) (f : Forms) (h : f.Regular) (full : Bool) (old : Point) (l : ℕ)
    (hl : (l : Int) ≤ mf + nf) :
    (¬ useBackward (mf + nf) (f.a + f.b2 + f.c) (f.a - f.b2 + f.c) →
      (preparePoint nf mf full f old).Tlp l = tInt (f.a + f.b2 + f.c) (f.c - f.a) (f.a - f.b2 + f.c) l) ∧
    (¬ useBackward (mf + nf) (f.a - f.b2 + f.c) (f.a + f.b2 + f.c) →
      (preparePoint nf mf full f old).Tlm l = tInt (f.a - f.b2 + f.c) (f.c - f.a) (f.a + f.b2 + f.c) l) := by
  obtain ⟨c1, c2, c3, c4, c5⟩ := consts_basic f full old.k
  constructor
  · intro hb
    have := tValues_forward h.plus (by omega) hb old.Tlp l hl
    rw [quad_one_p, quad_neg_p, sqrt_four h.cpos, sqrt_four h.a] at this
    unfold preparePoint
    simp only [c1, c2, c3, c4, c5]
    exact this
  · intro hb
    have := tValues_forward h.minus (by omega) hb old.Tlm l hl
    rw [quad_one_m, quad_neg_m, sqrt_four h.cpos, sqrt_four h.a] at this
    unfold preparePoint
    simp only [c1, c2, c3, c4, c5]
    exact this

theorem coef_one (ap am d Ap Am D δ : ℝ) (hδ : δ = ap * am - d * d) (h0 : δ ≠ 0) (h1 : ap ≠ 0) :
    2 * d * (Ap / ap) - d * ((Ap * (δ - d * d) / ap - Am * ap + 2 * D * d) / δ)
      + ap * ((-Ap * am * d / ap - Am * d + 2 * D * am) / δ) = 2 * D := by
  field_simp
  rw [hδ]; ring

theorem coef_zero (ap am d Ap Am D δ : ℝ) (hδ : δ = ap * am - d * d) (h0 : δ ≠ 0) (h1 : ap ≠ 0) :
    am * (Ap / ap) - am * ((Ap * (δ - d * d) / ap - Am * ap + 2 * D * d) / δ)
      + d * ((-Ap * am * d / ap - Am * d + 2 * D * am) / δ) = Am := by
  field_simp
  rw [hδ]; ring

/-- **C72**, second kind: from the integrals `T_l` and `T_{l-1}`, the formulas for `Slp`, `Slm` give the integrals of
    `t^l P / Q^{3/2}` exactly, where `P` is made from the second fundamental form as `Q` is from the first. -/
theorem C72_second (f : Forms) (h : f.Regular) (old : Consts) (l : ℕ) :
    slp (constsOf f true old) l ((-1) ^ l) (tInt (f.a + f.b2 + f.c) (f.c - f.a) (f.a - f.b2 + f.c) l)
        (tInt (f.a + f.b2 + f.c) (f.c - f.a) (f.a - f.b2 + f.c) (l - 1))
      = sInt (f.a + f.b2 + f.c) (f.c - f.a) (f.a - f.b2 + f.c) (f.A + f.B2 + f.C) (f.C - f.A) (f.A - f.B2 + f.C) l ∧
    slm (constsOf f true old) l ((-1) ^ l) (tInt (f.a - f.b2 + f.c) (f.c - f.a) (f.a + f.b2 + f.c) l)
        (tInt (f.a - f.b2 + f.c) (f.c - f.a) (f.a + f.b2 + f.c) (l - 1))
      = sInt (f.a - f.b2 + f.c) (f.c - f.a) (f.a + f.b2 + f.c) (f.A - f.B2 + f.C) (f.C - f.A) (f.A + f.B2 + f.C) l := by
  have hp := h.plus.lead.ne'
  have hm := h.minus.lead.ne'
  have hd := h.plus.disc.ne'
  have hd' : (f.a + f.b2 + f.c) * (f.a - f.b2 + f.c) - (f.c - f.a) * (f.c - f.a) ≠ 0 := by
    rw [pow_two] at hd; exact hd
  constructor
  · rw [h.plus.s_eq (A' := f.A + f.B2 + f.C) (d' := f.C - f.A) (B' := f.A - f.B2 + f.C)
      (R0 := (constsOf f true old).R0p) (R1 := (constsOf f true old).R1p) (Ra := (constsOf f true old).Ra1p)]
    · rw [quad_one_p, quad_neg_p, sqrt_four h.cpos, sqrt_four h.a]
      unfold slp constsOf
      simp
    · simp only [constsOf, if_true]; field_simp
    · exact coef_one _ _ _ _ _ _ _ rfl hd' hp
    · exact coef_zero _ _ _ _ _ _ _ rfl hd' hp
  · rw [h.minus.s_eq (A' := f.A - f.B2 + f.C) (d' := f.C - f.A) (B' := f.A + f.B2 + f.C)
      (R0 := (constsOf f true old).R0m) (R1 := (constsOf f true old).R1m) (Ra := (constsOf f true old).Ra1m)]
    · rw [quad_one_m, quad_neg_m, sqrt_four h.cpos, sqrt_four h.a]
      unfold slm constsOf
      simp
    · simp only [constsOf, if_true]; field_simp
    · exact coef_one _ _ _ _ _ _ _ (by ring) hd' hm
    · exact coef_zero _ _ _ _ _ _ _ (by ring) hd' hm

/-- **C72**, backward branch: the stored values are `(T_l + e_l) T_0 / (T_0 + e_0)`, where the errors `e_l` of the recurrence
    started with zero beyond `kL + 50` are bounded as stated: they fall off by `√(A / B)` per step. -/
theorem C72_backward {A d B : ℝ} (h : Pos A d B) (kL : ℕ) (hb : useBackward kL A B) (old : Int → ℝ) :
    ∃ e : ℕ → ℝ,
      (∀ l ≤ kL, tValues kL A B d (√(quad A d B 1)) (√(quad A d B (-1))) old l
        = (tInt A d B l + e l) * (tInt A d B 0 / (tInt A d B 0 + e 0))) ∧
      ∀ l ≤ kL, (A * B - d ^ 2) * (max 1 l : ℝ) ^ 2 * e l ^ 2 ≤ B * (A / B) ^ (kL + 51 - l) *
        ((kL + 51 : ℝ) ^ 2 * (A * tInt A d B (kL + 51) ^ 2 + 2 * d * tInt A d B (kL + 51) * (tInt A d B (kL + 50) - 1e-300)
          + B * (tInt A d B (kL + 50) - 1e-300) ^ 2)) := by
  obtain ⟨r, r1, r2, r3, r4⟩ := backwardLoop_spec (A := A) (B := B) (d := d) (c := √(quad A d B 1)) (a := √(quad A d B (-1)))
    h.last.ne' kL (kL + 50) (by unfold kTailExtra; push_cast; ring)
    (upd old 0 (tZero A d (√(quad A d B 1)) (√(quad A d B (-1)))))
  have hom : ∀ l, 1 ≤ l → l ≤ kL + 50 → Homog A d B (fun l => r l - tInt A d B l) l := by
    intro l h1 h2
    have e1 := r3 l h1 h2
    obtain ⟨k, rfl⟩ : ∃ k, l = k + 1 := ⟨l - 1, by omega⟩
    have e2 := h.rec_succ k
    unfold Homog
    simp only [Nat.add_sub_cancel] at e1 ⊢
    push_cast at e1 e2 ⊢
    rw [show k + 1 + 1 = k + 2 from rfl] at e1 ⊢
    linear_combination e1 - e2
  refine ⟨fun l => r l - tInt A d B l, ?_, ?_⟩
  · intro l hl
    unfold tValues
    rw [if_pos hb]
    unfold backward
    have hs := forRange_inv (lo := 0) (hi := (kL : Int) + 1) (by omega)
      (fun l T => upd T l (T l * (tZero A d (√(quad A d B 1)) (√(quad A d B (-1))) / r 0)))
      (backwardLoop kL A B d (√(quad A d B 1)) (√(quad A d B (-1)))
        (upd old 0 (tZero A d (√(quad A d B 1)) (√(quad A d B (-1)))))).T
      (fun j T => ∀ i : ℕ, i ≤ kL → T i = if (i : Int) < j then r i * (tZero A d (√(quad A d B 1)) (√(quad A d B (-1))) / r 0)
        else r i) (fun i hi => by rw [if_neg (by omega)]; exact r4 i hi)
      (by
        intro j T h0 h1 ih i hi
        simp only [upd]
        by_cases e : (i : Int) = j
        · subst e; rw [if_pos rfl, if_pos (by omega), ih i hi, if_neg (by omega)]
        · rw [if_neg e, ih i hi]
          by_cases h : (i : Int) < j
          · rw [if_pos h, if_pos (by omega)]
          · rw [if_neg h, if_neg (by omega)]) l hl
    have r40 := r4 0 (by omega)
    rw [show ((0 : ℕ) : Int) = 0 from rfl] at r40
    rw [r40, hs, if_pos (by omega), tZero_eq h]
    ring
  · intro l hl
    have := error_le h _ (kL + 50) hom l (by omega)
    refine this.trans (le_of_eq ?_)
    rw [show kL + 50 + 1 = kL + 51 from rfl]
    unfold gForm
    simp only
    rw [show kL + 51 - 1 = kL + 50 from rfl, r1, show r (kL + 51) = 0 from r2]
    push_cast
    ring

/-- Both solutions of the characteristic equation have modulus `√(B / A)`: the damping of the backward recurrence is
    `√(A / B)` per step, not `A / B` as the comment at `singular_integrals.cc:241-242` says. -/
theorem C72_roots {A d B : ℝ} (h : Pos A d B) (r : ℂ) (hr : (A : ℂ) * r ^ 2 + 2 * d * r + B = 0) :
    Complex.normSq r = B / A := by
  have hA := h.lead
  have h1 := congrArg Complex.re hr
  have h2 := congrArg Complex.im hr
  simp [pow_two] at h1 h2
  have h3 : r.im * (A * r.re + d) = 0 := by linear_combination h2 / 2
  have him : r.im ≠ 0 := by
    intro e
    rw [e] at h1
    have : 0 < A * quad A d B r.re := mul_pos hA (h.quad_pos _)
    unfold quad at this
    have h4 : A * r.re ^ 2 + 2 * d * r.re + B = 0 := by linear_combination h1
    rw [h4] at this; simp at this
  have h4 : A * r.re + d = 0 := (mul_eq_zero.1 h3).resolve_left him
  rw [Complex.normSq_apply, eq_div_iff hA.ne']
  linear_combination (2 * r.re) * h4 - h1

/-- a metric that is not orthogonal -/
example : (Forms.mk 1 1 2 1 0 1).Regular := ⟨by norm_num, by norm_num⟩

/-- a point of the forward branch and one of the backward branch -/
example : ¬ useBackward 10 4 2 ∧ useBackward 100 1 9 := by
  unfold useBackward
  constructor
  · norm_num
  · rw [if_pos (by norm_num)]
    have h1 : (1 : ℝ) < Real.log (9 / 1) := by
      rw [Real.lt_log_iff_exp_lt (by norm_num)]
      have := Real.exp_one_lt_three
      linarith
    push_cast
    linarith

end Verif.Nestor
