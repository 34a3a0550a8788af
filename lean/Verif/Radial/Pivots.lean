import Verif.Radial.Definite

/-! # No pivot vanishes -/
namespace Verif.Radial
open Verif Finset

/-- the rows of the tridiagonal matrix of mode `(m, n)` -/
structure Rows (G : Glob) (S : Pair) (σ : Side) (m n jMin jMax : Int) (a d b : Int → ℝ) : Prop where
  sup : ∀ j, jMin ≤ j → j < jMax → j < G.ns - 1 → a j = -G.q (S σ) m n j
  sub : ∀ j, jMin ≤ j → j < jMax → 0 < j → b j = -G.q (S σ) m n (j - 1)
  diag : ∀ j, jMin ≤ j → j < jMax → d j = -((if 0 < j then G.r (S σ) m n (j - 1) else 0) + (if j < G.ns - 1 then G.p (S σ) m n j else 0)
      + (if j = 1 ∧ m = 1 then G.q (S σ) m n 0 else 0)) * (if j = G.ns - 1 then edgeFactor G.deltaS σ.diag m n else 1)

variable {G : Glob} {S : Pair} {σ : Side} {m n jMin jMax : Int} {a d b : Int → ℝ}

theorem Rows.step (w : Rows G S σ m n jMin jMax a d b) (hjm : 0 ≤ jMin) (hjM : jMax ≤ G.ns) {i : ℕ} (h1 : jMin + i + 1 < jMax)
    (hm : ¬ (jMin + i + 1 = 1 ∧ m = 1)) :
    -Tridiag.piv a d b jMin (i + 1) = (G.r (S σ) m n (jMin + i) + (if jMin + i + 1 < G.ns - 1 then G.p (S σ) m n (jMin + i + 1) else 0))
      * (if jMin + i + 1 = G.ns - 1 then edgeFactor G.deltaS σ.diag m n else 1) - G.q (S σ) m n (jMin + i) ^ 2 / (-Tridiag.piv a d b jMin i) := by
  simp only [Tridiag.piv]
  rw [w.diag (jMin + i + 1) (by omega) h1, w.sub (jMin + i + 1) (by omega) h1 (by omega), w.sup (jMin + i) (by omega) (by omega) (by omega),
    if_pos (show 0 < jMin + i + 1 by omega), if_neg hm, add_sub_cancel_right]
  rw [div_neg, add_zero]
  ring

/-- **Lemma.** No pivot vanishes. -/
theorem Rows.pivots (w : Rows G S σ m n jMin jMax a d b) (h : G.Phys S) (hns : 3 ≤ G.ns) (m0 : 0 ≤ m) (hmin : jMin = jMinOf m)
    (hmax : jMax = G.ns - 1 ∨ jMax = G.ns) (hcore : m = 1 → 0 < G.q (S σ) m n 0 + G.r (S σ) m n 0) :
    ∀ i : ℕ, jMin + i < jMax → Tridiag.piv a d b jMin i ≠ 0 := by
  have hd := h.deltaS
  rcases Int.lt_or_le 0 m with hm | hm
  · -- the axis does not move
    have e1 : jMin = 1 := by rw [hmin, jMinOf, if_pos hm]
    subst e1
    have inv : ∀ i : ℕ, (1 : Int) + i < G.ns - 1 → G.p (S σ) m n (1 + i) < -Tridiag.piv a d b 1 i := by
      intro i
      induction i with
      | zero =>
        intro _
        simp only [Nat.cast_zero, add_zero, Tridiag.piv]
        rw [w.diag 1 le_rfl (by omega), if_pos (by omega), if_pos (show (1 : Int) < G.ns - 1 by omega), if_neg (show ¬ ((1 : Int) = G.ns - 1) by omega)]
        have hr := h.r_pos σ m n (j := 0) le_rfl (by omega)
        by_cases hm1 : m = 1
        · rw [if_pos ⟨rfl, hm1⟩]
          have := hcore hm1
          rw [show (1 : Int) - 1 = 0 by norm_num]
          linarith
        · rw [if_neg (fun hh => hm1 hh.2), show (1 : Int) - 1 = 0 by norm_num]
          linarith
      | succ i ih =>
        intro hi
        push_cast at hi ⊢
        have hi' := ih (by omega)
        rw [w.step (by omega) (by omega) (by omega) (by omega), if_pos (show (1 : Int) + i + 1 < G.ns - 1 by omega),
          if_neg (show ¬ ((1 : Int) + i + 1 = G.ns - 1) by omega)]
        have := pivot_strict (h.p_nonneg (S σ) m n (j := 1 + i) (by omega) (by omega)) hi' (h.r_pos σ m n (j := 1 + i) (by omega) (by omega))
          (h.q_sq (S σ) m n (j := 1 + i) (by omega) (by omega))
        rw [show (1 : Int) + ((i : Int) + 1) = 1 + i + 1 by ring]
        linarith
    intro i hi
    by_cases hb : (1 : Int) + i < G.ns - 1
    · have h1 := inv i hb
      have h2 := h.p_nonneg (S σ) m n (j := 1 + i) (by omega) hb
      intro h0
      rw [h0] at h1
      linarith
    · obtain ⟨i, rfl⟩ : ∃ k, i = k + 1 := ⟨i - 1, by omega⟩
      push_cast at hi hb
      have h1 := inv i (by omega)
      have hp := h.p_nonneg (S σ) m n (j := 1 + i) (by omega) (by omega)
      have hr := h.r_pos σ m n (j := 1 + i) (by omega) (by omega)
      have := pivot_strict hp h1 hr (h.q_sq (S σ) m n (j := 1 + i) (by omega) (by omega))
      have e := w.step (by omega) (by omega) (i := i) (by omega) (by omega)
      rw [if_neg (by omega), if_pos (by omega)] at e
      have k : 1 ≤ edgeFactor G.deltaS σ.diag m n := by
        unfold edgeFactor
        rw [if_neg (by rintro ⟨-, hh, -⟩; omega)]
        split <;> norm_num
      intro h0
      rw [h0] at e
      nlinarith
  · have m00 : m = 0 := le_antisymm hm m0
    subst m00
    have e1 : jMin = 0 := by rw [hmin]; rfl
    subst e1
    have first : -Tridiag.piv a d b 0 0 = G.p (S σ) 0 n 0 := by
      simp only [Tridiag.piv]
      rw [w.diag 0 le_rfl (by omega), if_neg (lt_irrefl _), if_pos (show (0 : Int) < G.ns - 1 by omega), if_neg (show ¬ ((0 : Int) = 1 ∧ (0 : Int) = 1) by omega),
        if_neg (show ¬ ((0 : Int) = G.ns - 1) by omega)]
      ring
    have inv : ∀ i : ℕ, (0 : Int) + i < G.ns - 1 → G.p (S σ) 0 n (0 + i) ≤ -Tridiag.piv a d b 0 i ∧ (n = 0 → -Tridiag.piv a d b 0 i = G.p (S σ) 0 n (0 + i)) := by
      intro i
      induction i with
      | zero =>
        intro _
        simp only [Nat.cast_zero, add_zero]
        exact ⟨first.ge, fun _ => first⟩
      | succ i ih =>
        intro hi
        push_cast at hi ⊢
        have hi' := ih (by omega)
        have hp := h.p_pos σ 0 n (by norm_num) (j := 0 + i) (by omega) (by omega)
        rw [w.step (by omega) (by omega) (by omega) (by omega), if_pos (show (0 : Int) + i + 1 < G.ns - 1 by omega),
          if_neg (show ¬ ((0 : Int) + i + 1 = G.ns - 1) by omega)]
        have := pivot_weak hp hi'.1 (h.r_pos σ 0 n (j := 0 + i) (by omega) (by omega)).le
          (h.q_sq (S σ) 0 n (j := 0 + i) (by omega) (by omega))
        rw [show (0 : Int) + ((i : Int) + 1) = 0 + i + 1 by ring]
        refine ⟨by linarith, ?_⟩
        rintro rfl
        rw [hi'.2 rfl]
        obtain ⟨q1, q2⟩ := Glob.q_sq_00 (G := G) (S σ) (0 + i)
        rw [q1, q2]
        field_simp
        ring
    intro i hi
    by_cases hb : (0 : Int) + i < G.ns - 1
    · have h1 := (inv i hb).1
      have h2 := h.p_pos σ 0 n (by norm_num) (j := 0 + i) (by omega) hb
      intro h0
      rw [h0] at h1
      linarith
    · obtain ⟨i, rfl⟩ : ∃ k, i = k + 1 := ⟨i - 1, by omega⟩
      push_cast at hi hb
      obtain ⟨h1, h2⟩ := inv i (by omega)
      have hp := h.p_pos σ 0 n (by norm_num) (j := 0 + i) (by omega) (by omega)
      have hr := h.r_pos σ 0 n (j := 0 + i) (by omega) (by omega)
      have := pivot_weak hp h1 hr.le (h.q_sq (S σ) 0 n (j := 0 + i) (by omega) (by omega))
      have e := w.step (by omega) (by omega) (i := i) (by omega) (by omega)
      rw [if_neg (by omega), if_pos (by omega), add_zero] at e
      intro h0
      rw [h0] at e
      unfold edgeFactor at e
      by_cases hz : σ.diag = .dz ∧ (0 : Int) = 0 ∧ n = 0
      · rw [if_pos hz] at e
        have n0 := hz.2.2
        subst n0
        rw [h2 rfl] at e
        obtain ⟨q1, q2⟩ := Glob.q_sq_00 (G := G) (S σ) (0 + i)
        rw [q1, q2] at e
        have hmf : (0 : ℝ) < min 0.25 (0.25 * G.deltaS * 15) := lt_min (by norm_num) (by linarith)
        have e2 : (-G.p (S σ) 0 0 (0 + i)) ^ 2 / G.p (S σ) 0 0 (0 + i) = G.p (S σ) 0 0 (0 + i) := by
          field_simp
        rw [e2] at e
        have := mul_pos hp hmf
        linarith
      · rw [if_neg hz, if_pos (by norm_num)] at e
        have e3 : (0 : ℝ) = G.r (S σ) 0 n (0 + i) * 1.05 - G.q (S σ) 0 n (0 + i) ^ 2 / (-Tridiag.piv a d b 0 i) := by rw [← e]; ring
        linarith

end Verif.Radial
