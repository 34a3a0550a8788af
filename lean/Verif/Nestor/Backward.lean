import Verif.Nestor.Tl

/-!
# Error of the backward recurrence
-/
namespace Verif.Nestor
open Verif

/-- the homogeneous recurrence at `l` -/
def Homog (A d B : ℝ) (e : ℕ → ℝ) (l : ℕ) : Prop :=
  (l : ℝ) * B * e (l - 1) + (2 * l + 1) * d * e l + (l + 1) * A * e (l + 1) = 0

/-- the quadratic form that controls the error -/
def gForm (A d B : ℝ) (e : ℕ → ℝ) (l : ℕ) : ℝ :=
  (l : ℝ) ^ 2 * (A * e l ^ 2 + 2 * d * e l * e (l - 1) + B * e (l - 1) ^ 2)

theorem gForm_nonneg {A d B : ℝ} (h : Pos A d B) (e : ℕ → ℝ) (l : ℕ) : 0 ≤ gForm A d B e l := by
  unfold gForm
  have h1 := h.lead; have h2 := h.disc
  have : 0 ≤ A * (A * e l ^ 2 + 2 * d * e l * e (l - 1) + B * e (l - 1) ^ 2) := by
    have : A * (A * e l ^ 2 + 2 * d * e l * e (l - 1) + B * e (l - 1) ^ 2)
        = (A * e l + d * e (l - 1)) ^ 2 + (A * B - d ^ 2) * e (l - 1) ^ 2 := by ring
    rw [this]; positivity
  exact mul_nonneg (sq_nonneg _) (nonneg_of_mul_nonneg_right this h1)

/-- one step of the recurrence -/
theorem gForm_step {A d B : ℝ} (e : ℕ → ℝ) (l : ℕ) (he : Homog A d B e l) :
    A * gForm A d B e (l + 1) = B * gForm A d B e l + (2 * l + 1) * (A * B - d ^ 2) * e l ^ 2 := by
  unfold Homog at he
  unfold gForm
  simp only [Nat.add_sub_cancel]
  push_cast
  have h1 : ((l : ℝ) + 1) * (A * e (l + 1) + d * e l) = -(l * (d * e l + B * e (l - 1))) := by linear_combination he
  have h2 : (((l : ℝ) + 1) * (A * e (l + 1) + d * e l)) ^ 2 = (l * (d * e l + B * e (l - 1))) ^ 2 := by rw [h1]; ring
  linear_combination h2

/-- the form decays by at least `A / B` per step -/
theorem gForm_decay {A d B : ℝ} (h : Pos A d B) (e : ℕ → ℝ) (N : ℕ) (he : ∀ l, 1 ≤ l → l ≤ N → Homog A d B e l) (k l : ℕ)
    (hl : 1 ≤ l) (hk : l + k = N + 1) : gForm A d B e l ≤ (A / B) ^ k * gForm A d B e (N + 1) := by
  induction k generalizing l with
  | zero => have : l = N + 1 := by omega
            subst this; simp
  | succ k ih =>
    have h1 := ih (l + 1) (by omega) (by omega)
    have h2 := gForm_step e l (he l hl (by omega))
    have hB := h.last
    have h3 : gForm A d B e l ≤ A / B * gForm A d B e (l + 1) := by
      rw [div_mul_eq_mul_div, h2, le_div_iff₀ hB]
      have : 0 ≤ (2 * (l : ℝ) + 1) * (A * B - d ^ 2) * e l ^ 2 :=
        mul_nonneg (mul_nonneg (by positivity) h.disc.le) (sq_nonneg _)
      linarith
    calc gForm A d B e l ≤ A / B * gForm A d B e (l + 1) := h3
      _ ≤ A / B * ((A / B) ^ k * gForm A d B e (N + 1)) :=
        mul_le_mul_of_nonneg_left h1 (div_pos h.lead hB).le
      _ = _ := by ring

/-- size of the error -/
theorem error_le {A d B : ℝ} (h : Pos A d B) (e : ℕ → ℝ) (N : ℕ) (he : ∀ l, 1 ≤ l → l ≤ N → Homog A d B e l) (l : ℕ)
    (hl : l ≤ N) : (A * B - d ^ 2) * (max 1 l : ℝ) ^ 2 * e l ^ 2 ≤ B * (A / B) ^ (N + 1 - l) * gForm A d B e (N + 1) := by
  have hA := h.lead; have hB := h.last; have hD := h.disc
  rcases Nat.eq_zero_or_pos l with rfl | hp
  · have h1 := gForm_decay h e N he N 1 le_rfl (by omega)
    have h2 : A * gForm A d B e 1 = (A * e 1 + d * e 0) ^ 2 + (A * B - d ^ 2) * e 0 ^ 2 := by
      unfold gForm; simp only [Nat.sub_self]; push_cast; ring
    have h3 : (A * B - d ^ 2) * e 0 ^ 2 ≤ A * gForm A d B e 1 := by rw [h2]; nlinarith [sq_nonneg (A * e 1 + d * e 0)]
    have h4 : A * gForm A d B e 1 ≤ A * ((A / B) ^ N * gForm A d B e (N + 1)) := mul_le_mul_of_nonneg_left h1 hA.le
    have h5 : B * (A / B) ^ (N + 1 - 0) * gForm A d B e (N + 1) = A * ((A / B) ^ N * gForm A d B e (N + 1)) := by
      rw [Nat.sub_zero, pow_succ]; field_simp
    rw [h5]
    simp only [Nat.cast_zero]
    have : max (1 : ℝ) 0 = 1 := by norm_num
    rw [this]
    linarith
  · have h1 := gForm_decay h e N he (N + 1 - l) l hp (by omega)
    have h2 : B * gForm A d B e l = (l : ℝ) ^ 2 * ((d * e l + B * e (l - 1)) ^ 2 + (A * B - d ^ 2) * e l ^ 2) := by
      unfold gForm; ring
    have h3 : (A * B - d ^ 2) * (l : ℝ) ^ 2 * e l ^ 2 ≤ B * gForm A d B e l := by
      rw [h2]; nlinarith [mul_nonneg (sq_nonneg (l : ℝ)) (sq_nonneg (d * e l + B * e (l - 1)))]
    have h4 := mul_le_mul_of_nonneg_left h1 hB.le
    have : max (1 : ℝ) l = l := max_eq_right (by exact_mod_cast hp)
    rw [this]
    linarith

/-- the loop: the values it stores solve the recurrence with the given right-hand sides and end values -/
theorem backwardLoop_spec {A B d c a : ℝ} (hB : B ≠ 0) (kL N : ℕ) (hN : (N : Int) = kL + kTailExtra) (T : Int → ℝ) :
    ∃ r : ℕ → ℝ, r N = 1e-300 ∧ r (N + 1) = 0 ∧
      (∀ l : ℕ, 1 ≤ l → l ≤ N →
        (l : ℝ) * B * r (l - 1) + (2 * l + 1) * d * r l + (l + 1) * A * r (l + 1) = c - (-1) ^ l * a) ∧
      ∀ i : ℕ, i ≤ kL → (backwardLoop kL A B d c a T).T i = r i := by
  unfold kTailExtra at hN
  have key := forRangeRev_inv (lo := 1) (hi := (kL : Int) + kTailExtra + 1) (by unfold kTailExtra; omega)
    (fun l (st : Bwd) =>
      let rhs := c + (if l.tmod 2 = 0 then -1 else 1) * a
      let lo := (rhs - ((2 * l + 1 : Int) : ℝ) * d * st.cur - ((l + 1 : Int) : ℝ) * A * st.hi) / ((l : ℝ) * B)
      ({ T := if l - 1 ≤ (kL : Int) then upd st.T (l - 1) lo else st.T, hi := st.cur, cur := lo } : Bwd))
    { T := T, hi := 0, cur := 1e-300 }
    (fun j st => ∃ r : ℕ → ℝ, r N = 1e-300 ∧ r (N + 1) = 0 ∧
      (∀ l : ℕ, j ≤ l → l ≤ N →
        (l : ℝ) * B * r (l - 1) + (2 * l + 1) * d * r l + (l + 1) * A * r (l + 1) = c - (-1) ^ l * a) ∧
      st.cur = r (j - 1).toNat ∧ st.hi = r j.toNat ∧ ∀ i : ℕ, j - 1 ≤ i → i ≤ kL → st.T i = r i)
    (by
      refine ⟨fun i => if i = N then 1e-300 else 0, by simp, by simp, ?_, ?_, ?_, ?_⟩
      · intro l h1 h2; unfold kTailExtra at h1; omega
      · have : ((kL : Int) + kTailExtra + 1 - 1).toNat = N := by unfold kTailExtra; omega
        rw [this]; simp
      · have : ((kL : Int) + kTailExtra + 1).toNat = N + 1 := by unfold kTailExtra; omega
        simp [this]
      · intro i h1 h2; unfold kTailExtra at h1; omega)
    (by
      rintro j st h0 h1 ⟨r, r1, r2, r3, r4, r5, r6⟩
      unfold kTailExtra at h1
      obtain ⟨l, rfl⟩ : ∃ l : ℕ, j = l := ⟨j.toNat, by omega⟩
      have hl1 : 1 ≤ l := by omega
      have hlN : l ≤ N := by omega
      have e1 : ((l : Int) + 1 - 1).toNat = l := by omega
      have e2 : ((l : Int) + 1).toNat = l + 1 := by omega
      have e3 : ((l : Int) - 1).toNat = l - 1 := by omega
      rw [e1] at r4
      rw [e2] at r5
      simp only
      rw [r4, r5]
      set lo := (c + (if (l : Int).tmod 2 = 0 then -1 else 1) * a - ((2 * (l : Int) + 1 : Int) : ℝ) * d * r l
        - (((l : Int) + 1 : Int) : ℝ) * A * r (l + 1)) / (((l : Int) : ℝ) * B) with hlo
      refine ⟨fun i => if i = l - 1 then lo else r i, ?_, ?_, ?_, ?_, ?_, ?_⟩
      · simp only; rw [if_neg (by omega)]; exact r1
      · simp only; rw [if_neg (by omega)]; exact r2
      · intro k hk hkN
        simp only
        by_cases e : k = l
        · subst e
          rw [if_pos rfl, if_neg (by omega), if_neg (by omega), hlo]
          have hs : ((if (k : Int).tmod 2 = 0 then -1 else 1 : ℝ)) = -(-1) ^ k := by
            rcases Nat.even_or_odd k with hk | hk
            · rw [if_pos, hk.neg_one_pow]
              rw [Int.tmod_eq_emod_of_nonneg (by omega)]; obtain ⟨q, rfl⟩ := hk; omega
            · rw [if_neg, hk.neg_one_pow]; · ring
              rw [Int.tmod_eq_emod_of_nonneg (by omega)]; obtain ⟨q, rfl⟩ := hk; omega
          rw [hs]
          have hk0 : (k : ℝ) ≠ 0 := by exact_mod_cast (by omega : k ≠ 0)
          push_cast
          field_simp
          ring
        · rw [if_neg (by omega), if_neg (by omega), if_neg (by omega)]
          exact r3 k (by omega) hkN
      · simp only; rw [e3, if_pos rfl]
      · simp only; rw [if_neg (by omega)]; simp
      · intro i hi1 hi2
        simp only
        by_cases e : i = l - 1
        · rw [if_pos e, if_pos (by omega)]
          simp only [upd]; rw [if_pos (by omega)]
        · rw [if_neg e]
          split
          · simp only [upd]; rw [if_neg (by omega)]; exact r6 i (by omega) hi2
          · exact r6 i (by omega) hi2)
  obtain ⟨r, r1, r2, r3, -, -, r6⟩ := key
  exact ⟨r, r1, r2, fun l a b => r3 l (by exact_mod_cast a) b, fun i hi => r6 i (by omega) hi⟩

end Verif.Nestor
