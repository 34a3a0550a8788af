import Verif.Tridiag.Model
import Mathlib.Tactic.FieldSimp
import Mathlib.Tactic.Ring
import Mathlib.Tactic.LinearCombination
import Mathlib.Tactic.Linarith
import Mathlib.Algebra.Order.Field.Basic
import Mathlib.Tactic.Positivity
import Mathlib.Algebra.Order.AbsoluteValue.Basic
import Mathlib.Data.Rat.Defs
import Mathlib.Algebra.Order.Ring.Unbundled.Rat
import Mathlib.Algebra.Order.Ring.Rat
import Mathlib.Algebra.Field.Rat

/-!
# Property C13
-/
namespace Verif.Tridiag
open Verif

variable {K : Type} [Field K]

/-! ## Specification -/

/-- leading principal minors of the tridiagonal matrix with rows `jMin, jMin+1, ...`
    (`b` sub-diagonal, `d` diagonal, `a` super-diagonal) -/
def minor (a d b : Int → K) (jMin : Int) : ℕ → K
  | 0 => 1
  | 1 => d jMin
  | i + 2 => d (jMin + i + 1) * minor a d b jMin (i + 1) - a (jMin + i) * b (jMin + i + 1) * minor a d b jMin i

/-- `x` satisfies row `j` of the system with active rows `[jMin, jMax)` and right-hand side `r` -/
def rowHolds (a d b : Int → K) (jMin jMax : Int) (x r : Int → K) (j : Int) : Prop :=
  (if jMin < j then b j * x (j - 1) else 0) + d j * x j + (if j + 1 < jMax then a j * x (j + 1) else 0) = r j

/-! ## Helper lemmas -/

/-- pivots -/
def piv (a d b : Int → K) (jMin : Int) : ℕ → K
  | 0 => d jMin
  | i + 1 => d (jMin + i + 1) - a (jMin + i) / piv a d b jMin i * b (jMin + i + 1)

theorem minor_piv (a d b : Int → K) (jMin : Int) (n : ℕ) (h : ∀ i ≤ n, minor a d b jMin i ≠ 0) :
    ∀ i, i < n → piv a d b jMin i * minor a d b jMin i = minor a d b jMin (i + 1) ∧ piv a d b jMin i ≠ 0 := by
  intro i
  induction i with
  | zero =>
    intro hi
    have h1 := h 1 (by omega)
    simp only [minor, piv] at *
    exact ⟨by ring, h1⟩
  | succ i ih =>
    intro hi
    obtain ⟨e, hp⟩ := ih (by omega)
    have key : piv a d b jMin (i + 1) * minor a d b jMin (i + 1) = minor a d b jMin (i + 2) := by
      simp only [minor, piv]
      rw [← e]; field_simp
    refine ⟨key, fun h0 => h (i + 2) (by omega) ?_⟩
    rw [← key, h0, zero_mul]

theorem elimA_eq (a d b : Int → K) (jMin jMax : Int) (hlt : jMin < jMax) :
    (∀ i : ℕ, jMin + i < jMax - 1 ∨ i = 0 → elimA a d b jMin jMax (jMin + i) = a (jMin + i) / piv a d b jMin i) ∧
    ∀ j, (j < jMin ∨ (jMax - 1 ≤ j ∧ j ≠ jMin)) → elimA a d b jMin jMax j = a j := by
  unfold elimA
  by_cases h : jMin + 1 ≤ jMax - 1
  · have := forRange_inv h (fun j a => upd a j (a j / (d j - a (j - 1) * b j)))
      (upd a jMin (a jMin / d jMin))
      (fun j a' => (∀ i : ℕ, jMin + i < j → a' (jMin + i) = a (jMin + i) / piv a d b jMin i) ∧
        ∀ j', (j' < jMin ∨ j ≤ j') → a' j' = a j') ?_ ?_
    · refine ⟨fun i hi => this.1 i (by omega), fun j hj => this.2 j (by omega)⟩
    · refine ⟨?_, ?_⟩
      · intro i hi
        have : i = 0 := by omega
        subst this
        simp [piv]
      · intro j hj; rw [upd_ne _ _ (by omega)]
    · rintro j a' hj0 hj1 ⟨h1, h2⟩
      refine ⟨?_, ?_⟩
      · intro i hi
        by_cases he : jMin + i = j
        · subst he
          rw [upd_same]
          obtain ⟨i', rfl⟩ : ∃ i', i = i' + 1 := ⟨i - 1, by omega⟩
          rw [h2 _ (by omega)]
          have e1 : jMin + ((i' + 1 : ℕ) : Int) - 1 = jMin + i' := by push_cast; ring
          rw [e1, h1 i' (by omega)]
          simp only [piv]
          have e2 : jMin + ((i' + 1 : ℕ) : Int) = jMin + i' + 1 := by push_cast; ring
          rw [e2]
        · rw [upd_ne _ _ he]; exact h1 i (by omega)
      · intro j' hj'
        rw [upd_ne _ _ (by omega)]; exact h2 j' (by omega)
  · rw [forRange_empty (by omega)]
    refine ⟨?_, ?_⟩
    · intro i hi
      have : i = 0 := by omega
      subst this
      simp [piv]
    · intro j hj; rw [upd_ne _ _ (by omega)]

/-- forward-substituted right-hand side -/
def fwd (a d b r : Int → K) (jMin : Int) : ℕ → K
  | 0 => r jMin / piv a d b jMin 0
  | i + 1 => (r (jMin + i + 1) - fwd a d b r jMin i * b (jMin + i + 1)) / piv a d b jMin (i + 1)

/-- The result of one right-hand side: recursion from the end, plus frame. -/
theorem solveOne_eq (a0 a d b : Int → K) (stride jMin jMax k : Int) (hlt : jMin < jMax) (c : Int → K)
    (ha : ∀ i : ℕ, jMin + i < jMax - 1 → a (jMin + i) = a0 (jMin + i) / piv a0 d b jMin i) :
    let x := fun j => solveOne a d b stride jMin jMax k c (k * stride + j)
    let r := fun j => c (k * stride + j)
    (∀ i : ℕ, jMin + i = jMax - 1 → x (jMin + i) = fwd a0 d b r jMin i) ∧
    (∀ i : ℕ, jMin + i < jMax - 1 →
      x (jMin + i) = fwd a0 d b r jMin i - a0 (jMin + i) / piv a0 d b jMin i * x (jMin + i + 1)) ∧
    (∀ p, (p < k * stride + jMin ∨ k * stride + jMax ≤ p) → solveOne a d b stride jMin jMax k c p = c p) := by
  intro x r
  -- forward
  obtain ⟨c2, hc2⟩ : ∃ c2, c2 = forRange (jMin + 1) jMax (fun j c =>
    upd c (k * stride + j)
      ((c (k * stride + j) - c (k * stride + (j - 1)) * b j) / (d j - a (j - 1) * b j)))
      (upd c (k * stride + jMin) (c (k * stride + jMin) / d jMin)) := ⟨_, rfl⟩
  have F : (∀ i : ℕ, jMin + i < jMax → c2 (k * stride + (jMin + i)) = fwd a0 d b r jMin i) ∧
      ∀ p, (p < k * stride + jMin ∨ k * stride + jMax ≤ p) → c2 p = c p := by
    rw [hc2]
    refine forRange_inv (lo := jMin + 1) (hi := jMax) (by omega) _ _
      (fun (j : Int) (c' : Int → K) => (∀ i : ℕ, jMin + i < j → c' (k * stride + (jMin + i)) = fwd a0 d b r jMin i) ∧
        ∀ p, (p < k * stride + jMin ∨ k * stride + j ≤ p) → c' p = c p) ?_ ?_
    · refine ⟨?_, ?_⟩
      · intro i hi
        have : i = 0 := by omega
        subst this
        simp [fwd, piv, r]
      · intro p hp; rw [upd_ne _ _ (by omega)]
    · rintro j c' hj0 hj1 ⟨h1, h2⟩
      refine ⟨?_, ?_⟩
      · intro i hi
        by_cases he : jMin + i = j
        · subst he
          rw [upd_same]
          obtain ⟨i', rfl⟩ : ∃ i', i = i' + 1 := ⟨i - 1, by omega⟩
          rw [h2 _ (by omega)]
          have e1 : jMin + ((i' + 1 : ℕ) : Int) - 1 = jMin + i' := by push_cast; ring
          rw [e1, h1 i' (by omega), ha i' (by push_cast at hj1; omega)]
          have e2 : jMin + ((i' + 1 : ℕ) : Int) = jMin + i' + 1 := by push_cast; ring
          rw [e2]
          simp only [fwd, piv, r]
        · rw [upd_ne _ _ (by omega)]; exact h1 i (by omega)
      · intro p hp
        rw [upd_ne _ _ (by omega)]; exact h2 p (by omega)
  -- backward
  have B := forRangeRev_inv (lo := jMin) (hi := jMax - 1) (by omega) (fun j c =>
    upd c (k * stride + j) (c (k * stride + j) - a j * c (k * stride + (j + 1)))) c2
    (fun j c' => (∀ j', jMin ≤ j' → (j' < j ∨ j' = jMax - 1) → c' (k * stride + j') = c2 (k * stride + j')) ∧
      (∀ j', j ≤ j' → j' < jMax - 1 → c' (k * stride + j') = c2 (k * stride + j') - a j' * c' (k * stride + (j' + 1))) ∧
      ∀ p, (p < k * stride + jMin ∨ k * stride + jMax ≤ p) → c' p = c2 p)
    ⟨fun _ _ _ => rfl, by intro j' h1 h2; omega, fun _ _ => rfl⟩ (by
      rintro j c' hj0 hj1 ⟨h1, h2, h3⟩
      refine ⟨?_, ?_, ?_⟩
      · intro j' h0 hj'
        rw [upd_ne _ _ (by omega)]; exact h1 j' h0 (by omega)
      · intro j' hj' hj''
        by_cases he : j' = j
        · subst he
          rw [upd_same, upd_ne _ _ (by omega), h1 j' hj0 (by omega)]
        · rw [upd_ne _ _ (by omega), upd_ne _ _ (by omega)]
          exact h2 j' (by omega) hj''
      · intro p hp
        rw [upd_ne _ _ (by omega)]; exact h3 p hp)
  have hx : ∀ p, solveOne a d b stride jMin jMax k c p = forRangeRev jMin (jMax - 1) (fun j c =>
    upd c (k * stride + j) (c (k * stride + j) - a j * c (k * stride + (j + 1)))) c2 p := by
    intro p; rw [hc2]; rfl
  obtain ⟨B1, B2, B3⟩ := B
  refine ⟨?_, ?_, ?_⟩
  · intro i hi
    show solveOne a d b stride jMin jMax k c (k * stride + (jMin + i)) = _
    rw [hx, B1 _ (by omega) (by omega), F.1 i (by omega)]
  · intro i hi
    show solveOne a d b stride jMin jMax k c (k * stride + (jMin + i)) = _
    rw [hx, B2 _ (by omega) hi, F.1 i (by omega), ha i hi]
    simp only [x, hx]
  · intro p hp
    rw [hx, B3 p hp, F.2 p hp]

theorem rows_of_rec (a d b r x : Int → K) (jMin jMax : Int) (n : ℕ) (hn : jMin + n = jMax)
    (hp : ∀ i, i < n → piv a d b jMin i ≠ 0)
    (h1 : ∀ i : ℕ, jMin + i = jMax - 1 → x (jMin + i) = fwd a d b r jMin i)
    (h2 : ∀ i : ℕ, jMin + i < jMax - 1 →
      x (jMin + i) = fwd a d b r jMin i - a (jMin + i) / piv a d b jMin i * x (jMin + i + 1)) :
    ∀ j, jMin ≤ j → j < jMax → rowHolds a d b jMin jMax x r j := by
  intro j hj0 hj1
  obtain ⟨i, rfl⟩ : ∃ i : ℕ, j = jMin + i := ⟨(j - jMin).toNat, by omega⟩
  have hpi := hp i (by omega)
  -- piv * x + a x' = piv * fwd
  have e : piv a d b jMin i * x (jMin + i) + (if jMin + i + 1 < jMax then a (jMin + i) * x (jMin + i + 1) else 0)
      = piv a d b jMin i * fwd a d b r jMin i := by
    by_cases h : jMin + i + 1 < jMax
    · rw [if_pos h, h2 i (by omega)]; field_simp; ring
    · rw [if_neg h, h1 i (by omega)]; ring
  unfold rowHolds
  cases i with
  | zero =>
    rw [if_neg (by simp)]
    simp only [fwd, piv] at e
    have hd : d jMin ≠ 0 := by simpa [piv] using hpi
    simp only [Nat.cast_zero, add_zero] at *
    rw [zero_add, e]; field_simp
  | succ i' =>
    have hpi' := hp i' (by omega)
    have e2 : jMin + ((i' + 1 : ℕ) : Int) = jMin + i' + 1 := by push_cast; ring
    rw [e2] at e ⊢
    rw [if_pos (by omega)]
    have e3 : jMin + (i' : Int) + 1 - 1 = jMin + i' := by ring
    rw [e3]
    have hprev := h2 i' (by push_cast at hn; omega)
    have hfw : piv a d b jMin (i' + 1) * fwd a d b r jMin (i' + 1) =
        r (jMin + i' + 1) - fwd a d b r jMin i' * b (jMin + i' + 1) := by
      simp only [fwd]; field_simp
    rw [hfw] at e
    simp only [piv] at e
    rw [hprev, add_assoc]
    linear_combination e

theorem unique_of_rows (a d b r x y : Int → K) (jMin jMax : Int) (n : ℕ) (hn : jMin + n = jMax)
    (hp : ∀ i, i < n → piv a d b jMin i ≠ 0)
    (hx : ∀ j, jMin ≤ j → j < jMax → rowHolds a d b jMin jMax x r j)
    (hy : ∀ j, jMin ≤ j → j < jMax → rowHolds a d b jMin jMax y r j) :
    ∀ j, jMin ≤ j → j < jMax → x j = y j := by
  -- forward elimination of the difference
  have F : ∀ i, i < n → piv a d b jMin i * (x (jMin + i) - y (jMin + i)) +
      (if jMin + (i : Int) + 1 < jMax then a (jMin + i) * (x (jMin + i + 1) - y (jMin + i + 1)) else 0) = 0 := by
    intro i
    induction i with
    | zero =>
      intro hi
      have h1 := hx jMin (le_refl _) (by omega)
      have h2 := hy jMin (le_refl _) (by omega)
      unfold rowHolds at h1 h2
      simp only [lt_irrefl, if_false, Nat.cast_zero, add_zero, piv, zero_add] at *
      by_cases h : jMin + 1 < jMax
      · simp only [h, if_true] at h1 h2 ⊢; linear_combination h1 - h2
      · simp only [h, if_false] at h1 h2 ⊢; linear_combination h1 - h2
    | succ i ih =>
      intro hi
      have ih := ih (by omega)
      have hpi := hp i (by omega)
      have e2 : jMin + ((i + 1 : ℕ) : Int) = jMin + i + 1 := by push_cast; ring
      rw [e2]
      rw [if_pos (by omega)] at ih
      have h1 := hx (jMin + i + 1) (by omega) (by omega)
      have h2 := hy (jMin + i + 1) (by omega) (by omega)
      unfold rowHolds at h1 h2
      have e3 : jMin + (i : Int) + 1 - 1 = jMin + i := by ring
      rw [if_pos (by omega), e3] at h1 h2
      simp only [piv]
      have ex : x (jMin + i) - y (jMin + i) = - (a (jMin + i) / piv a d b jMin i) * (x (jMin + i + 1) - y (jMin + i + 1)) := by
        field_simp; linear_combination ih
      by_cases h : jMin + (i : Int) + 1 + 1 < jMax
      · simp only [h, if_true] at h1 h2 ⊢; linear_combination h1 - h2 - b (jMin + i + 1) * ex
      · simp only [h, if_false] at h1 h2 ⊢; linear_combination h1 - h2 - b (jMin + i + 1) * ex
  -- backward
  have B : ∀ q : ℕ, q < n → x (jMin + ((n - 1 - q : ℕ) : Int)) = y (jMin + ((n - 1 - q : ℕ) : Int)) := by
    intro q
    induction q with
    | zero =>
      intro hq
      have h := F (n - 1) (by omega)
      rw [if_neg (by omega), add_zero] at h
      rcases mul_eq_zero.1 h with h | h
      · exact absurd h (hp _ (by omega))
      · simp only [Nat.sub_zero]; exact sub_eq_zero.1 h
    | succ q ih =>
      intro hq
      have ih := ih (by omega)
      have h := F (n - 1 - (q + 1)) (by omega)
      have e : jMin + ((n - 1 - (q + 1) : ℕ) : Int) + 1 = jMin + ((n - 1 - q : ℕ) : Int) := by omega
      rw [e, ih, sub_self, mul_zero, ite_self, add_zero] at h
      rcases mul_eq_zero.1 h with h | h
      · exact absurd h (hp _ (by omega))
      · exact sub_eq_zero.1 h
  intro j h0 h1
  have := B (n - 1 - (j - jMin).toNat) (by omega)
  have e : jMin + ((n - 1 - (n - 1 - (j - jMin).toNat) : ℕ) : Int) = j := by omega
  rwa [e] at this

theorem minor_congr (a d b a' d' b' : Int → K) (jMin : Int) (h : ∀ j, jMin ≤ j → a j = a' j ∧ d j = d' j ∧ b j = b' j) :
    ∀ i, minor a d b jMin i = minor a' d' b' jMin i
  | 0 => rfl
  | 1 => by simp only [minor]; exact (h jMin (le_refl _)).2.1
  | i + 2 => by
    simp only [minor]
    rw [minor_congr a d b a' d' b' jMin h (i + 1), minor_congr a d b a' d' b' jMin h i,
      (h (jMin + i + 1) (by omega)).2.1, (h (jMin + i) (by omega)).1, (h (jMin + i + 1) (by omega)).2.2]

theorem slot_ne {stride k k' j j' : Int} (h0 : 0 ≤ j) (h1 : j < stride) (h0' : 0 ≤ j') (h1' : j' < stride)
    (hk : k ≠ k' ∨ j ≠ j') : k * stride + j ≠ k' * stride + j' := by
  intro h
  have hs : 0 < stride := by omega
  have e1 : (k * stride + j) / stride = k := by
    rw [add_comm, Int.add_mul_ediv_right _ _ hs.ne', Int.ediv_eq_zero_of_lt h0 h1, zero_add]
  have e2 : (k' * stride + j') / stride = k' := by
    rw [add_comm, Int.add_mul_ediv_right _ _ hs.ne', Int.ediv_eq_zero_of_lt h0' h1', zero_add]
  have e3 : k = k' := by rw [← e1, h, e2]
  subst e3
  omega

theorem fillHead_eq (stride jMin nRHS : Int) (hj : 0 ≤ jMin) (hn : 0 ≤ nRHS) (hs : jMin ≤ stride) (s : St K) :
    (∀ j, ¬ (0 ≤ j ∧ j < jMin) → (fillHead stride jMin nRHS s).a j = s.a j ∧
      (fillHead stride jMin nRHS s).d j = s.d j ∧ (fillHead stride jMin nRHS s).b j = s.b j) ∧
    (∀ k j, 0 ≤ k → k < nRHS → 0 ≤ j → j < jMin → (fillHead stride jMin nRHS s).c (k * stride + j) = 0) ∧
    (∀ k j, 0 ≤ j → j < stride → ¬ (0 ≤ k ∧ k < nRHS ∧ j < jMin) →
      (fillHead stride jMin nRHS s).c (k * stride + j) = s.c (k * stride + j)) := by
  unfold fillHead
  have := forRange_inv hj (fun j (s : St K) =>
    ({ a := upd s.a j 0
       d := upd s.d j 1
       b := upd s.b j 0
       c := forRange 0 nRHS (fun k c => upd c (k * stride + j) 0) s.c } : St K)) s
    (fun q s' => (∀ j, ¬ (0 ≤ j ∧ j < jMin) → s'.a j = s.a j ∧ s'.d j = s.d j ∧ s'.b j = s.b j) ∧
      (∀ k j, 0 ≤ k → k < nRHS → 0 ≤ j → j < q → s'.c (k * stride + j) = 0) ∧
      (∀ k j, 0 ≤ j → j < stride → ¬ (0 ≤ k ∧ k < nRHS ∧ j < q) → s'.c (k * stride + j) = s.c (k * stride + j)))
    ⟨fun _ _ => ⟨rfl, rfl, rfl⟩, by intro k j; omega, fun _ _ _ _ _ => rfl⟩ (by
      rintro q s' hq0 hq1 ⟨i1, i2, i3⟩
      have inner := forRange_inv hn (fun k c => upd c (k * stride + q) (0 : K)) s'.c
        (fun kk c' => (∀ k, 0 ≤ k → k < kk → c' (k * stride + q) = 0) ∧
          (∀ k j, 0 ≤ j → j < stride → ¬ (0 ≤ k ∧ k < kk ∧ j = q) → c' (k * stride + j) = s'.c (k * stride + j)))
        ⟨by intro k; omega, fun _ _ _ _ _ => rfl⟩ (by
          rintro kk c' hk0 hk1 ⟨n1, n2⟩
          refine ⟨?_, ?_⟩
          · intro k h0 h1
            by_cases he : k = kk
            · subst he; simp
            · rw [upd_ne _ _ (slot_ne hq0 (by omega) hq0 (by omega) (Or.inl he))]; exact n1 k h0 (by omega)
          · intro k j h0 h1 hne
            rw [upd_ne _ _ (slot_ne h0 h1 hq0 (by omega) (by omega))]
            exact n2 k j h0 h1 (by omega))
      obtain ⟨n1, n2⟩ := inner
      refine ⟨?_, ?_, ?_⟩
      · intro j hne
        dsimp only
        rw [upd_ne _ _ (by omega), upd_ne _ _ (by omega), upd_ne _ _ (by omega)]
        exact i1 j hne
      · intro k j hk0 hk1 h0 h1
        dsimp only
        by_cases he : j = q
        · subst he; exact n1 k hk0 hk1
        · rw [n2 k j h0 (by omega) (by omega)]; exact i2 k j hk0 hk1 h0 (by omega)
      · intro k j h0 h1 hne
        dsimp only
        rw [n2 k j h0 h1 (by omega)]; exact i3 k j h0 h1 (by omega))
  exact this

/-! ## The property -/

/-- **C13**: if the leading principal minors of the active block do not vanish, the returned vectors
    solve the system for every right-hand side, rows below the active range are zero, everything else
    in the right-hand side storage is untouched, and the solution is the only one. -/
theorem C13_thomas (stride jMin jMax nRHS : Int) (h0 : 0 ≤ jMin) (h1 : jMin < jMax) (h2 : jMax ≤ stride)
    (hn : 0 ≤ nRHS) (s : St K)
    (hminor : ∀ i : ℕ, (i : Int) ≤ jMax - jMin → minor s.a s.d s.b jMin i ≠ 0) :
    let out := (solve stride jMin jMax nRHS s).c
    (∀ k, 0 ≤ k → k < nRHS →
      (∀ j, jMin ≤ j → j < jMax → rowHolds s.a s.d s.b jMin jMax (fun j => out (k * stride + j))
        (fun j => s.c (k * stride + j)) j) ∧
      (∀ y : Int → K, (∀ j, jMin ≤ j → j < jMax →
          rowHolds s.a s.d s.b jMin jMax y (fun j => s.c (k * stride + j)) j) →
        ∀ j, jMin ≤ j → j < jMax → y j = out (k * stride + j)) ∧
      (∀ j, 0 ≤ j → j < jMin → out (k * stride + j) = 0)) ∧
    (∀ k j, 0 ≤ j → j < stride → ¬ (0 ≤ k ∧ k < nRHS ∧ j < jMax) →
      out (k * stride + j) = s.c (k * stride + j)) := by
  intro out
  obtain ⟨f1, f2, f3⟩ := fillHead_eq stride jMin nRHS h0 hn (by omega) s
  obtain ⟨s1, hs1⟩ : ∃ s1, s1 = fillHead stride jMin nRHS s := ⟨_, rfl⟩
  rw [← hs1] at f1 f2 f3
  have hout : out = forRange 0 nRHS (fun k c => solveOne (elimA s1.a s1.d s1.b jMin jMax) s1.d s1.b stride jMin jMax k c) s1.c := by
    simp only [out, solve, hs1]
  have hm : ∀ i : ℕ, (i : Int) ≤ jMax - jMin → minor s1.a s1.d s1.b jMin i ≠ 0 := by
    intro i hi
    rw [minor_congr s1.a s1.d s1.b s.a s.d s.b jMin (fun j hj => f1 j (by omega))]
    exact hminor i hi
  obtain ⟨n, hnn⟩ : ∃ n : ℕ, jMin + n = jMax := ⟨(jMax - jMin).toNat, by omega⟩
  have hp : ∀ i, i < n → piv s1.a s1.d s1.b jMin i ≠ 0 := fun i hi =>
    (minor_piv s1.a s1.d s1.b jMin n (fun i hi => hm i (by omega)) i hi).2
  obtain ⟨ha, _⟩ := elimA_eq s1.a s1.d s1.b jMin jMax h1
  -- loop over right-hand sides
  have L := forRange_inv hn (fun k c => solveOne (elimA s1.a s1.d s1.b jMin jMax) s1.d s1.b stride jMin jMax k c) s1.c
    (fun q c' => (∀ k, 0 ≤ k → k < q →
        (∀ j, jMin ≤ j → j < jMax → rowHolds s1.a s1.d s1.b jMin jMax (fun j => c' (k * stride + j))
          (fun j => s1.c (k * stride + j)) j)) ∧
      (∀ k j, 0 ≤ j → j < stride → ¬ (0 ≤ k ∧ k < q ∧ jMin ≤ j ∧ j < jMax) → c' (k * stride + j) = s1.c (k * stride + j)))
    ⟨by intro k; omega, fun _ _ _ _ _ => rfl⟩ (by
      rintro q c' hq0 hq1 ⟨i1, i2⟩
      obtain ⟨r1, r2, r3⟩ := solveOne_eq s1.a (elimA s1.a s1.d s1.b jMin jMax) s1.d s1.b stride jMin jMax q h1 c'
        (fun i hi => ha i (Or.inl hi))
      have frame : ∀ k j, 0 ≤ j → j < stride → ¬ (k = q ∧ jMin ≤ j ∧ j < jMax) →
          solveOne (elimA s1.a s1.d s1.b jMin jMax) s1.d s1.b stride jMin jMax q c' (k * stride + j) = c' (k * stride + j) := by
        intro k j hj0 hj1 hne
        apply r3
        by_cases hk : k = q
        · subst hk; omega
        · rcases lt_or_gt_of_ne hk with h | h
          · left
            have : (k + 1) * stride ≤ q * stride := Int.mul_le_mul_of_nonneg_right (by omega) (by omega)
            have e : (k + 1) * stride = k * stride + stride := by ring
            omega
          · right
            have : (q + 1) * stride ≤ k * stride := Int.mul_le_mul_of_nonneg_right (by omega) (by omega)
            have e : (q + 1) * stride = q * stride + stride := by ring
            omega
      have hr : ∀ j, jMin ≤ j → j < jMax → c' (q * stride + j) = s1.c (q * stride + j) :=
        fun j a b => i2 q j (by omega) (by omega) (by omega)
      refine ⟨?_, ?_⟩
      · intro k hk0 hk1 j hj0 hj1
        by_cases hk : k = q
        · subst hk
          have := rows_of_rec s1.a s1.d s1.b (fun j => c' (k * stride + j))
            (fun j => solveOne (elimA s1.a s1.d s1.b jMin jMax) s1.d s1.b stride jMin jMax k c' (k * stride + j)) jMin jMax n hnn hp r1 r2 j hj0 hj1
          unfold rowHolds at *
          rw [this]
          exact hr j hj0 hj1
        · have := i1 k hk0 (by omega) j hj0 hj1
          unfold rowHolds at *
          dsimp only at *
          rw [frame k j (by omega) (by omega) (by omega), ← this]
          congr 1
          · congr 1
            split
            · rw [frame k (j - 1) (by omega) (by omega) (by omega)]
            · rfl
          · split
            · rw [frame k (j + 1) (by omega) (by omega) (by omega)]
            · rfl
      · intro k j hj0 hj1 hne
        rw [frame k j hj0 hj1 (by omega)]
        exact i2 k j hj0 hj1 (by omega))
  rw [← hout] at L
  obtain ⟨L1, L2⟩ := L
  have tr : ∀ x j, jMin ≤ j → j < jMax → ∀ k, (rowHolds s1.a s1.d s1.b jMin jMax x (fun j => s1.c (k * stride + j)) j ↔
      rowHolds s.a s.d s.b jMin jMax x (fun j => s.c (k * stride + j)) j) := by
    intro x j hj0 hj1 k
    unfold rowHolds
    dsimp only
    rw [(f1 j (by omega)).1, (f1 j (by omega)).2.1, (f1 j (by omega)).2.2, f3 k j (by omega) (by omega) (by omega)]
  refine ⟨?_, ?_⟩
  · intro k hk0 hk1
    refine ⟨fun j hj0 hj1 => (tr _ j hj0 hj1 k).1 (L1 k hk0 hk1 j hj0 hj1), ?_, ?_⟩
    · intro y hy j hj0 hj1
      exact unique_of_rows s1.a s1.d s1.b (fun j => s1.c (k * stride + j)) y (fun j => out (k * stride + j)) jMin jMax n hnn hp
        (fun j a b => (tr _ j a b k).2 (hy j a b)) (L1 k hk0 hk1) j hj0 hj1
    · intro j hj0 hj1
      rw [L2 k j hj0 (by omega) (by omega), f2 k j hk0 hk1 hj0 hj1]
  · intro k j hj0 hj1 hne
    rw [L2 k j hj0 hj1 (by omega), f3 k j hj0 hj1 (by omega)]

/-- **C13** (sufficient condition): strict diagonal dominance by rows or columns keeps the minors away
    from zero; here by rows. -/
theorem C13_dominant {K : Type} [Field K] [LinearOrder K] [IsStrictOrderedRing K] (a d b : Int → K) (jMin : Int)
    (hd : ∀ j, jMin ≤ j → |a j| + |b j| < |d j|) : ∀ i : ℕ, minor a d b jMin i ≠ 0 := by
  have key : ∀ i : ℕ, |a (jMin + i)| * |minor a d b jMin i| < |minor a d b jMin (i + 1)| := by
    intro i
    induction i with
    | zero =>
      have := hd jMin (le_refl _)
      have hb := abs_nonneg (b jMin)
      simp only [minor, Nat.cast_zero, add_zero, abs_one, mul_one]
      linarith
    | succ i ih =>
      have h := hd (jMin + i + 1) (by omega)
      have e2 : jMin + ((i + 1 : ℕ) : Int) = jMin + i + 1 := by push_cast; ring
      rw [e2]
      simp only [minor]
      set D := d (jMin + i + 1)
      set B := b (jMin + i + 1)
      set A' := a (jMin + i + 1)
      have pos : 0 < |minor a d b jMin (i + 1)| := lt_of_le_of_lt (mul_nonneg (abs_nonneg _) (abs_nonneg _)) ih
      have t := abs_sub_abs_le_abs_sub (D * minor a d b jMin (i + 1)) (a (jMin + i) * B * minor a d b jMin i)
      rw [abs_mul, abs_mul, abs_mul] at t
      have hB := abs_nonneg B
      have h3 : |a (jMin + i)| * |B| * |minor a d b jMin i| ≤ |B| * |minor a d b jMin (i + 1)| := by
        have := mul_le_mul_of_nonneg_left ih.le hB
        linarith
      have h4 := mul_lt_mul_of_pos_right h pos
      rw [add_mul] at h4
      linarith
  intro i
  cases i with
  | zero => simp [minor]
  | succ i =>
    intro h
    have := key i
    rw [h, abs_zero] at this
    exact absurd this (not_lt.2 (mul_nonneg (abs_nonneg _) (abs_nonneg _)))

/-- concrete instance: 2 right-hand sides, rows 1..3 of 4 -/
def exSt : St ℚ := ⟨fun _ => 1, fun j => 4 + j, fun _ => 2, fun p => p + 1⟩
example : ∀ i : ℕ, minor exSt.a exSt.d exSt.b 1 i ≠ 0 := by
  apply C13_dominant
  intro j hj
  have : (1 : ℚ) ≤ (j : ℚ) := by exact_mod_cast hj
  simp only [exSt]
  rw [abs_of_pos (show (0:ℚ) < 4 + j by linarith)]
  norm_num
  linarith
example : (solve 5 1 4 2 exSt).c 0 = 0 ∧
    5 * (solve 5 1 4 2 exSt).c 1 + 1 * (solve 5 1 4 2 exSt).c 2 = 2 ∧
    2 * (solve 5 1 4 2 exSt).c 7 + 7 * (solve 5 1 4 2 exSt).c 8 = 9 ∧
    (solve 5 1 4 2 exSt).c 4 = 5 := by decide +kernel

end Verif.Tridiag
