import Verif.Nestor.Singular
import Verif.Nestor.Integrals

/-!
# The recurrences of `SingularIntegrals` compute the integrals: helper lemmas
-/
namespace Verif.Nestor
open Verif

/-- the forward recurrence started with `T_0` fills the array with the integrals -/
theorem forward_eq {A d B : ℝ} (h : Pos A d B) (kL : Int) (hk : 0 ≤ kL) (T : Int → ℝ) (hT : T 0 = tInt A d B 0) (l : ℕ)
    (hl : (l : Int) ≤ kL) :
    forward kL A B d (√(quad A d B 1)) (√(quad A d B (-1))) T l = tInt A d B l := by
  have := forRange_inv (lo := 0) (hi := kL) hk (fun fl (st : Fwd) =>
    let sgn := -st.sgn
    let rhs := √(quad A d B 1) + sgn * √(quad A d B (-1))
    let next := (rhs - ((2 * fl + 1 : Int) : ℝ) * d * st.T fl - (fl : ℝ) * B * st.prev) / (A * ((fl + 1 : Int) : ℝ))
    ({ T := upd st.T (fl + 1) next, prev := st.T fl, sgn := sgn } : Fwd)) { T := T, prev := 0, sgn := 1 }
    (fun fl st => (∀ j : ℕ, (j : Int) ≤ fl → st.T j = tInt A d B j) ∧
      (fl ≠ 0 → st.prev = tInt A d B (fl - 1).toNat) ∧ st.sgn = (-1) ^ fl.toNat)
    (by
      refine ⟨fun j hj => ?_, fun h => absurd rfl h, by simp⟩
      have : j = 0 := by omega
      subst this; exact hT) (by
      intro fl st h0 h1 ⟨i1, i2, i3⟩
      obtain ⟨n, rfl⟩ : ∃ n : ℕ, fl = n := ⟨fl.toNat, by omega⟩
      have hA := h.lead.ne'
      refine ⟨fun j hj => ?_, fun _ => ?_, ?_⟩
      · by_cases e : (j : Int) = n + 1
        · have ej : j = n + 1 := by omega
          subst ej
          simp only [upd]
          rw [if_pos (by push_cast; rfl), i1 n le_rfl, i3]
          simp only [Int.toNat_natCast]
          rcases n with - | n
          · have hr := h.rec_zero
            push_cast
            field_simp
            simp only [pow_zero, mul_one, mul_zero, zero_mul, add_zero, zero_add, sub_zero, one_mul, neg_mul]
            linear_combination (-1 : ℝ) * hr
          · have hr := h.rec_succ n
            rw [i2 (by push_cast; omega)]
            have e2 : ((((n + 1 : ℕ) : Int) - 1).toNat) = n := by omega
            rw [e2]
            push_cast at hr ⊢
            field_simp
            have e3 : (n : ℝ) + 1 + 1 = n + 2 := by ring
            rw [e3]
            linear_combination (-1 : ℝ) * hr
        · simp only [upd]
          rw [if_neg e]
          exact i1 j (by omega)
      · simp only
        rw [i1 n le_rfl]
        congr 1
        omega
      · simp only
        rw [i3]
        have : ((n : Int) + 1).toNat = n + 1 := by omega
        rw [this, Int.toNat_natCast, pow_succ]
        ring)
  exact this.1 l hl

/-- the constants of a point and its quadratic forms -/
theorem consts_basic (f : Forms) (full : Bool) (old : Consts) :
    (constsOf f full old).ap = f.a + f.b2 + f.c ∧ (constsOf f full old).am = f.a - f.b2 + f.c ∧
    (constsOf f full old).d = f.c - f.a ∧ (constsOf f full old).sqrtc2 = 2 * √f.c ∧
    (constsOf f full old).sqrta2 = 2 * √f.a := by
  unfold constsOf
  cases full <;> simp

/-- the first fundamental form is positive definite -/
structure Forms.Regular (f : Forms) : Prop where
  a : 0 < f.a
  det : f.b2 ^ 2 < 4 * f.a * f.c

theorem Forms.Regular.cpos {f : Forms} (h : f.Regular) : 0 < f.c := by
  have h1 := h.a; have h2 := h.det
  by_contra hc
  nlinarith [mul_nonneg h1.le (by linarith : 0 ≤ -f.c), sq_nonneg f.b2]

theorem Forms.Regular.plus {f : Forms} (h : f.Regular) : Pos (f.a + f.b2 + f.c) (f.c - f.a) (f.a - f.b2 + f.c) := by
  have h1 := h.a; have h2 := h.det; have h3 := h.cpos
  have hs : f.b2 ^ 2 < (f.a + f.c) ^ 2 := by nlinarith [sq_nonneg (f.a - f.c)]
  have := abs_lt_of_sq_lt_sq hs (by linarith)
  have h4 := abs_lt.1 this
  exact ⟨by linarith, by nlinarith⟩

theorem Forms.Regular.minus {f : Forms} (h : f.Regular) : Pos (f.a - f.b2 + f.c) (f.c - f.a) (f.a + f.b2 + f.c) :=
  h.plus.symm

theorem sqrt_four {x : ℝ} (_h : 0 < x) : √(4 * x) = 2 * √x := by
  rw [Real.sqrt_mul (by norm_num), show (4 : ℝ) = 2 ^ 2 by norm_num, Real.sqrt_sq (by norm_num)]

theorem quad_one_p (f : Forms) : quad (f.a + f.b2 + f.c) (f.c - f.a) (f.a - f.b2 + f.c) 1 = 4 * f.c := by unfold quad; ring
theorem quad_neg_p (f : Forms) : quad (f.a + f.b2 + f.c) (f.c - f.a) (f.a - f.b2 + f.c) (-1) = 4 * f.a := by
  unfold quad; ring
theorem quad_one_m (f : Forms) : quad (f.a - f.b2 + f.c) (f.c - f.a) (f.a + f.b2 + f.c) 1 = 4 * f.c := by unfold quad; ring
theorem quad_neg_m (f : Forms) : quad (f.a - f.b2 + f.c) (f.c - f.a) (f.a + f.b2 + f.c) (-1) = 4 * f.a := by
  unfold quad; ring

theorem tZero_eq {A d B : ℝ} (h : Pos A d B) : tZero A d (√(quad A d B 1)) (√(quad A d B (-1))) = tInt A d B 0 := by
  rw [h.zero]; rfl

/-- forward branch -/
theorem tValues_forward {A d B : ℝ} (h : Pos A d B) {kL : Int} (hk : 0 ≤ kL) (hb : ¬ useBackward kL A B) (old : Int → ℝ) (l : ℕ)
    (hl : (l : Int) ≤ kL) :
    tValues kL A B d (√(quad A d B 1)) (√(quad A d B (-1))) old l = tInt A d B l := by
  unfold tValues
  rw [if_neg hb]
  exact forward_eq h kL hk _ (by simp [upd, tZero_eq h]) l hl

end Verif.Nestor
