import Verif.Fourier.Model
import Verif.Fourier.Spec
import Verif.Common.FlatSum
import Mathlib.Tactic.Ring
import Mathlib.Tactic.Linarith
import Mathlib.Tactic.FieldSimp
import Mathlib.Tactic.LinearCombination
import Mathlib.Algebra.CharZero.Defs
import Mathlib.Data.Int.Cast.Lemmas

namespace Verif.Fourier
open Verif

variable {K : Type} [Field K]

/-- position of mode (m,n) -/
def idx (N m n : Int) : Int := if m = 0 then n else (N + 1) + (m - 1) * (2 * N + 1) + (n + N)

theorem idx_zero (N n : Int) : idx N 0 n = n := by simp [idx]
theorem idx_pos {N m n : Int} (h : m ≠ 0) : idx N m n = (N + 1) + (m - 1) * (2 * N + 1) + (n + N) := by
  simp [idx, h]

theorem idx_mul_bound {N m m' : Int} (hN : 0 ≤ N) (h : m < m') :
    (m - 1) * (2 * N + 1) + (2 * N + 1) ≤ (m' - 1) * (2 * N + 1) := by
  have : (m - 1 + 1) * (2 * N + 1) ≤ (m' - 1) * (2 * N + 1) :=
    Int.mul_le_mul_of_nonneg_right (by omega) (by omega)
  have e : (m - 1 + 1) * (2 * N + 1) = (m - 1) * (2 * N + 1) + (2 * N + 1) := by ring
  omega

theorem idx_range {M N m n : Int} (hN : 0 ≤ N) (h : validMode M N m n) :
    0 ≤ idx N m n ∧ idx N m n < mnMax M N := by
  obtain ⟨h1, h2, h3, h4⟩ := h
  unfold mnMax
  by_cases hm : m = 0
  · subst hm
    simp only [if_true] at h4
    rw [idx_zero]
    have := Int.mul_nonneg (show 0 ≤ M - 1 by omega) (show 0 ≤ 2 * N + 1 by omega)
    omega
  · simp only [hm, if_false] at h4
    rw [idx_pos hm]
    have h5 := Int.mul_nonneg (show 0 ≤ m - 1 by omega) (show 0 ≤ 2 * N + 1 by omega)
    have h6 := idx_mul_bound (m := m) (m' := M) hN h2
    omega

theorem idx_inj {M N m n m' n' : Int} (hN : 0 ≤ N) (h : validMode M N m n) (h' : validMode M N m' n')
    (e : idx N m n = idx N m' n') : m = m' ∧ n = n' := by
  obtain ⟨h1, h2, h3, h4⟩ := h
  obtain ⟨h1', h2', h3', h4'⟩ := h'
  by_cases hm : m = 0 <;> by_cases hm' : m' = 0
  · subst hm hm'; simp only [idx_zero] at e; exact ⟨rfl, e⟩
  · subst hm; rw [idx_zero, idx_pos hm'] at e
    simp only [hm', if_false] at h4'
    have := Int.mul_nonneg (show 0 ≤ m' - 1 by omega) (show 0 ≤ 2 * N + 1 by omega)
    omega
  · subst hm'; rw [idx_zero, idx_pos hm] at e
    simp only [hm, if_false] at h4
    have := Int.mul_nonneg (show 0 ≤ m - 1 by omega) (show 0 ≤ 2 * N + 1 by omega)
    omega
  · rw [idx_pos hm, idx_pos hm'] at e
    simp only [hm, if_false] at h4
    simp only [hm', if_false] at h4'
    rcases lt_trichotomy m m' with h | h | h
    · have := idx_mul_bound hN h; omega
    · subst h; exact ⟨rfl, by omega⟩
    · have := idx_mul_bound hN h; omega

theorem idx_surj {M N i : Int} (hN : 0 ≤ N) (h0 : 0 ≤ i) (h1 : i < mnMax M N) (hM : 1 ≤ M) :
    ∃ m n, validMode M N m n ∧ idx N m n = i := by
  unfold mnMax at h1
  by_cases h : i < N + 1
  · refine ⟨0, i, ⟨by omega, by omega, by omega, by simp; omega⟩, idx_zero N i⟩
  · have hb : 0 < 2 * N + 1 := by omega
    obtain ⟨a, b, c, d, e⟩ := flat_div (a := M - 1) hb (show 0 ≤ i - (N + 1) by omega) (by omega)
    refine ⟨(i - (N + 1)) / (2 * N + 1) + 1, (i - (N + 1)) % (2 * N + 1) - N, ⟨by omega, by omega, by omega, ?_⟩, ?_⟩
    · rw [if_neg (by omega)]; omega
    · rw [idx_pos (by omega)]
      have e' : ((i - (N + 1)) / (2 * N + 1) + 1 - 1) = (i - (N + 1)) / (2 * N + 1) := by ring
      rw [e']; omega

/-- what the proofs need to know about a layout -/
structure GoodLayout (L : Layout) (M N : Int) : Prop where
  inj : ∀ m n m' n', 0 ≤ m → m < M → 0 ≤ n → n ≤ N → 0 ≤ m' → m' < M → 0 ≤ n' → n' ≤ N →
    L.product m n M N = L.product m' n' M N → m = m' ∧ n = n'
  bound : ∀ m n, 0 ≤ m → m < M → 0 ≤ n → n ≤ N → 0 ≤ L.product m n M N ∧ L.product m n M N < M * (N + 1)

theorem flat_inj {b x y x' y' : Int} (hb : 0 < b) (h1 : 0 ≤ y) (h2 : y < b) (h1' : 0 ≤ y') (h2' : y' < b)
    (e : x * b + y = x' * b + y') : x = x' ∧ y = y' := by
  have hx : x = x' := by
    rcases lt_trichotomy x x' with h | h | h
    · have := Int.mul_le_mul_of_nonneg_right (show x + 1 ≤ x' by omega) hb.le
      have e' : (x + 1) * b = x * b + b := by ring
      omega
    · exact h
    · have := Int.mul_le_mul_of_nonneg_right (show x' + 1 ≤ x by omega) hb.le
      have e' : (x' + 1) * b = x' * b + b := by ring
      omega
  subst hx
  exact ⟨rfl, by omega⟩

theorem flat_bound {a b x y : Int} (hb : 0 < b) (h0 : 0 ≤ x) (hx : x < a) (h1 : 0 ≤ y) (h2 : y < b) :
    0 ≤ x * b + y ∧ x * b + y < a * b := by
  have := Int.mul_le_mul_of_nonneg_right (show x + 1 ≤ a by omega) hb.le
  have e' : (x + 1) * b = x * b + b := by ring
  have := Int.mul_nonneg h0 hb.le
  omega

theorem good_fastPoloidal (M N : Int) (hN : 0 ≤ N) : GoodLayout fastPoloidal M N where
  inj m n m' n' _ _ h3 h4 _ _ h7 h8 e :=
    flat_inj (b := N + 1) (by omega) h3 (by omega) h7 (by omega) e
  bound m n h1 h2 h3 h4 := flat_bound (b := N + 1) (by omega) h1 h2 h3 (by omega)

theorem good_fastToroidal (M N : Int) (hM : 1 ≤ M) : GoodLayout fastToroidal M N where
  inj m n m' n' h1 h2 h3 h4 h5 h6 h7 h8 e := by
    have := flat_inj (b := M) (x := n) (y := m) (x' := n') (y' := m') (by omega) h1 h2 h5 h6 e
    exact ⟨this.2, this.1⟩
  bound m n h1 h2 h3 h4 := by
    have := flat_bound (a := N + 1) (b := M) (x := n) (y := m) (by omega) h3 (by omega) h1 h2
    have e : M * (N + 1) = (N + 1) * M := by ring
    rw [e]; exact this

/-! ## the row loop of `cos_to_cc_ss`/`sin_to_sc_cs` -/

def rowBody (P : Int → Int) (norm : Int → K) (fc : Int → K) (σ : K) (n : Int) (s : Conv K) : Conv K :=
  { mn := s.mn + 1
    a := upd s.a (P |n|) (s.a (P |n|) + norm |n| * fc s.mn)
    b := if |n| > 0 then upd s.b (P |n|) (s.b (P |n|) + σ * (n.sign : K) * (norm |n| * fc s.mn)) else s.b }

theorem row_loop (P : Int → Int) (norm fc : Int → K) (σ : K) (N : Int) (hN : 0 ≤ N) (s : Conv K)
    (inj : ∀ n n', 0 ≤ n → n ≤ N → 0 ≤ n' → n' ≤ N → P n = P n' → n = n') :
    let r := forRange (-N) (N + 1) (rowBody P norm fc σ) s
    r.mn = s.mn + (2 * N + 1) ∧
    (∀ n, 0 ≤ n → n ≤ N → r.a (P n) = s.a (P n) + norm n * (if n = 0 then fc (s.mn + N)
        else fc (s.mn + N + n) + fc (s.mn + N - n))) ∧
    (∀ n, 0 ≤ n → n ≤ N → r.b (P n) = s.b (P n) + σ * norm n * (if n = 0 then 0
        else fc (s.mn + N + n) - fc (s.mn + N - n))) ∧
    (∀ i, (∀ n, 0 ≤ n → n ≤ N → i ≠ P n) → r.a i = s.a i ∧ r.b i = s.b i) := by
  intro r
  have key := forRange_inv (lo := -N) (hi := N + 1) (by omega) (rowBody P norm fc σ) s
    (fun j r => r.mn = s.mn + (j + N) ∧
      (∀ n, 0 ≤ n → n ≤ N → r.a (P n) = s.a (P n) + norm n * ((if -n < j then fc (s.mn + N - n) else 0)
          + (if n ≠ 0 ∧ n < j then fc (s.mn + N + n) else 0))) ∧
      (∀ n, 0 ≤ n → n ≤ N → r.b (P n) = s.b (P n) + σ * norm n *
          ((if n ≠ 0 ∧ n < j then fc (s.mn + N + n) else 0) - (if n ≠ 0 ∧ -n < j then fc (s.mn + N - n) else 0))) ∧
      (∀ i, (∀ n, 0 ≤ n → n ≤ N → i ≠ P n) → r.a i = s.a i ∧ r.b i = s.b i)) ?_ ?_
  · obtain ⟨k1, k2, k3, k4⟩ := key
    refine ⟨by rw [k1]; ring, ?_, ?_, k4⟩
    · intro n h0 h1
      rw [k2 n h0 h1, if_pos (by omega)]
      by_cases hn : n = 0
      · subst hn; simp
      · rw [if_pos ⟨hn, by omega⟩, if_neg hn]; ring
    · intro n h0 h1
      rw [k3 n h0 h1]
      by_cases hn : n = 0
      · subst hn; simp
      · rw [if_pos ⟨hn, by omega⟩, if_pos ⟨hn, by omega⟩, if_neg hn]
  · refine ⟨by simp, ?_, ?_, fun i _ => ⟨rfl, rfl⟩⟩
    · intro n h0 h1
      rw [if_neg (by omega), if_neg (by omega)]; simp
    · intro n h0 h1
      rw [if_neg (by omega), if_neg (by omega)]; simp
  · rintro j r' hj0 hj1 ⟨k1, k2, k3, k4⟩
    have habs : 0 ≤ |j| ∧ |j| ≤ N := ⟨abs_nonneg j, by rw [abs_le]; omega⟩
    refine ⟨by simp [rowBody, k1]; ring, ?_, ?_, ?_⟩
    · intro n h0 h1
      by_cases hn : n = |j|
      · subst hn
        simp only [rowBody, upd_same]
        rw [k2 _ h0 h1, k1]
        rcases lt_trichotomy j 0 with h | h | h
        · rw [abs_of_neg h]
          rw [if_neg (by omega), if_neg (by omega), if_pos (by omega), if_neg (by omega)]
          rw [show s.mn + (j + N) = s.mn + N - -j by ring]; ring
        · subst h
          simp
        · rw [abs_of_pos h]
          rw [if_pos (by omega), if_neg (by omega), if_pos (by omega), if_pos (by omega)]
          rw [show s.mn + (j + N) = s.mn + N + j by ring]; ring
      · have hne : P n ≠ P |j| := fun e => hn (inj n |j| h0 h1 habs.1 habs.2 e)
        simp only [rowBody]
        rw [upd_ne _ _ hne, k2 _ h0 h1]
        have c1 : (-n < j) ↔ (-n < j + 1) := by
          have : j ≠ -n := fun e => hn (by rw [e, abs_neg, abs_of_nonneg h0])
          omega
        have c2 : (n < j) ↔ (n < j + 1) := by
          have : j ≠ n := fun e => hn (by rw [e, abs_of_nonneg h0])
          omega
        simp only [c1, c2]
    · intro n h0 h1
      by_cases hn : n = |j|
      · subst hn
        rcases lt_trichotomy j 0 with h | h | h
        · have hp : |j| > 0 := abs_pos.2 h.ne
          simp only [rowBody, if_pos hp, upd_same]
          rw [k3 _ h0 h1, k1, Int.sign_eq_neg_one_of_neg h]
          rw [abs_of_neg h]
          rw [if_neg (by omega), if_neg (by omega), if_neg (by omega), if_pos (by omega)]
          rw [show s.mn + (j + N) = s.mn + N - -j by ring]
          push_cast; ring
        · subst h
          simp only [rowBody, abs_zero, gt_iff_lt, lt_irrefl, if_false]
          rw [abs_zero] at h0 h1
          rw [k3 0 h0 h1]
          simp
        · have hp : |j| > 0 := abs_pos.2 h.ne'
          simp only [rowBody, if_pos hp, upd_same]
          rw [k3 _ h0 h1, k1, Int.sign_eq_one_of_pos h]
          rw [abs_of_pos h]
          rw [if_neg (by omega), if_pos (by omega), if_pos (by omega), if_pos (by omega)]
          rw [show s.mn + (j + N) = s.mn + N + j by ring]
          push_cast; ring
      · have hne : P n ≠ P |j| := fun e => hn (inj n |j| h0 h1 habs.1 habs.2 e)
        have hb : (rowBody P norm fc σ j r').b (P n) = r'.b (P n) := by
          simp only [rowBody]
          split
          · exact upd_ne _ _ hne
          · rfl
        rw [hb, k3 _ h0 h1]
        have c1 : (-n < j) ↔ (-n < j + 1) := by
          have : j ≠ -n := fun e => hn (by rw [e, abs_neg, abs_of_nonneg h0])
          omega
        have c2 : (n < j) ↔ (n < j + 1) := by
          have : j ≠ n := fun e => hn (by rw [e, abs_of_nonneg h0])
          omega
        simp only [c1, c2]
    · intro i hi
      have hne : i ≠ P |j| := hi _ habs.1 habs.2
      simp only [rowBody]
      rw [upd_ne _ _ hne]
      refine ⟨(k4 i hi).1, ?_⟩
      split
      · rw [upd_ne _ _ hne]; exact (k4 i hi).2
      · exact (k4 i hi).2

/-! ## the whole conversion, given the state after the m=0 loop -/

theorem conv_rows (L : Layout) (M N : Int) (hM : 1 ≤ M) (hN : 0 ≤ N) (G : GoodLayout L M N)
    (norm : Int → Int → K) (fc : Int → K) (σ : K) (s : Conv K) (hmn : s.mn = N + 1) :
    let r := forRange 1 M (fun m s => forRange (-N) (N + 1)
      (rowBody (fun n => L.product m n M N) (norm m) fc σ) s) s
    r.mn = mnMax M N ∧
    (∀ n, 0 ≤ n → n ≤ N → r.a (L.product 0 n M N) = s.a (L.product 0 n M N) ∧
      r.b (L.product 0 n M N) = s.b (L.product 0 n M N)) ∧
    (∀ m n, 1 ≤ m → m < M → 0 ≤ n → n ≤ N →
      r.a (L.product m n M N) = s.a (L.product m n M N) + norm m n * (if n = 0 then fc (idx N m 0)
        else fc (idx N m n) + fc (idx N m (-n))) ∧
      r.b (L.product m n M N) = s.b (L.product m n M N) + σ * norm m n * (if n = 0 then 0
        else fc (idx N m n) - fc (idx N m (-n)))) := by
  intro r
  have key := forRange_inv (lo := 1) (hi := M) hM (fun m s => forRange (-N) (N + 1)
      (rowBody (fun n => L.product m n M N) (norm m) fc σ) s) s
    (fun j r => r.mn = mnMax j N ∧
      (∀ m n, 0 ≤ m → m < M → (m = 0 ∨ j ≤ m) → 0 ≤ n → n ≤ N →
        r.a (L.product m n M N) = s.a (L.product m n M N) ∧
        r.b (L.product m n M N) = s.b (L.product m n M N)) ∧
      (∀ m n, 1 ≤ m → m < j → 0 ≤ n → n ≤ N →
      r.a (L.product m n M N) = s.a (L.product m n M N) + norm m n * (if n = 0 then fc (idx N m 0)
        else fc (idx N m n) + fc (idx N m (-n))) ∧
      r.b (L.product m n M N) = s.b (L.product m n M N) + σ * norm m n * (if n = 0 then 0
        else fc (idx N m n) - fc (idx N m (-n))))) ?_ ?_
  · obtain ⟨k1, k2, k3⟩ := key
    exact ⟨k1, fun n h0 h1 => k2 0 n (le_refl _) (by omega) (Or.inl rfl) h0 h1, k3⟩
  · refine ⟨by rw [hmn]; simp [mnMax], fun _ _ _ _ _ _ _ => ⟨rfl, rfl⟩, fun m n h1 h2 => by omega⟩
  · rintro j r' hj0 hj1 ⟨k1, k2, k3⟩
    obtain ⟨l1, l2, l3, l4⟩ := row_loop (fun n => L.product j n M N) (norm j) fc σ N hN r'
      (fun n n' h0 h1 h0' h1' e => (G.inj j n j n' (by omega) hj1 h0 h1 (by omega) hj1 h0' h1' e).2)
    have hidx : ∀ n, idx N j n = r'.mn + N + n := by
      intro n; rw [idx_pos (by omega), k1]; unfold mnMax; ring
    have hother : ∀ m n, 0 ≤ m → m < M → m ≠ j → 0 ≤ n → n ≤ N →
        ∀ n', 0 ≤ n' → n' ≤ N → L.product m n M N ≠ L.product j n' M N := by
      intro m n h0 h1 hne h2 h3 n' h2' h3' e
      exact hne (G.inj m n j n' h0 h1 h2 h3 (by omega) hj1 h2' h3' e).1
    refine ⟨by rw [l1, k1]; unfold mnMax; ring, ?_, ?_⟩
    · intro m n h0 h1 hm h2 h3
      have := l4 (L.product m n M N) (hother m n h0 h1 (by omega) h2 h3)
      rw [this.1, this.2]
      exact k2 m n h0 h1 (by omega) h2 h3
    · intro m n h0 h1 h2 h3
      by_cases hm : m = j
      · subst hm
        rw [l2 n h2 h3, l3 n h2 h3, (k2 m n (by omega) hj1 (Or.inr (le_refl _)) h2 h3).1,
          (k2 m n (by omega) hj1 (Or.inr (le_refl _)) h2 h3).2]
        simp only [hidx, add_zero, sub_eq_add_neg]
        refine ⟨?_, ?_⟩ <;> first | trivial | rfl
      · have := l4 (L.product m n M N) (hother m n (by omega) (by omega) hm h2 h3)
        rw [this.1, this.2]
        exact k3 m n h0 (by omega) h2 h3

/-- normalisation factor `1/(mscale*nscale)` -/
def nrm (mscale nscale : Int → K) (m n : Int) : K := 1 / (mscale m * nscale n)

/-- **closed form of `cos_to_cc_ss`** -/
theorem cos_to_cc_ss_eq (L : Layout) (M N : Int) (hM : 1 ≤ M) (hN : 0 ≤ N) (G : GoodLayout L M N)
    (mscale nscale fc cc0 ss0 : Int → K) :
    ∃ cc ss, cos_to_cc_ss L mscale nscale fc cc0 ss0 N M = .ok (cc, ss) ∧
      ∀ m n, 0 ≤ m → m < M → 0 ≤ n → n ≤ N →
        cc (L.product m n M N) = nrm mscale nscale m n *
          (if m = 0 ∨ n = 0 then fc (idx N m n) else fc (idx N m n) + fc (idx N m (-n))) ∧
        ss (L.product m n M N) =
          (if m = 0 ∨ n = 0 then 0 else nrm mscale nscale m n * (fc (idx N m n) - fc (idx N m (-n)))) := by
  -- m = 0 loop
  have l0 := forRange_inv (lo := 0) (hi := N + 1) (by omega) (fun n (s : Conv K) =>
    { s with a := upd s.a (L.product 0 |n| M N) (s.a (L.product 0 |n| M N) +
        1 / (mscale 0 * nscale |n|) * fc s.mn), mn := s.mn + 1 })
    (⟨0, fill0 cc0 (M * (N + 1)), fill0 ss0 (M * (N + 1))⟩ : Conv K)
    (fun j s => s.mn = j ∧ (∀ m n, 0 ≤ m → m < M → 0 ≤ n → n ≤ N →
      s.a (L.product m n M N) = (if m = 0 ∧ n < j then nrm mscale nscale 0 n * fc n else 0) ∧
      s.b (L.product m n M N) = 0)) ?_ ?_
  rotate_left
  · refine ⟨rfl, fun m n h0 h1 h2 h3 => ?_⟩
    have := G.bound m n h0 h1 h2 h3
    simp only [fill0]
    rw [if_pos this, if_pos this, if_neg (by omega)]
    exact ⟨rfl, rfl⟩
  · rintro j s hj0 hj1 ⟨k1, k2⟩
    rw [abs_of_nonneg hj0]
    refine ⟨by simp [k1], fun m n h0 h1 h2 h3 => ⟨?_, (k2 m n h0 h1 h2 h3).2⟩⟩
    by_cases hmn : m = 0 ∧ n = j
    · obtain ⟨rfl, rfl⟩ := hmn
      simp only [upd_same]
      rw [(k2 0 n h0 h1 h2 h3).1, k1]
      simp [nrm]
    · have hne : L.product m n M N ≠ L.product 0 j M N := fun e =>
        hmn (G.inj m n 0 j h0 h1 h2 h3 (le_refl _) (by omega) hj0 (by omega) e)
      simp only
      rw [upd_ne _ _ hne, (k2 m n h0 h1 h2 h3).1]
      have : (m = 0 ∧ n < j) ↔ (m = 0 ∧ n < j + 1) := by omega
      simp only [this]
  obtain ⟨k1, k2⟩ := l0
  have rows := conv_rows L M N hM hN G (nrm mscale nscale) fc 1 _ k1
  obtain ⟨r1, r2, r3⟩ := rows
  unfold cos_to_cc_ss
  simp only
  -- the model's row body is `rowBody` with σ = 1
  have hbody : (fun (m : Int) (s : Conv K) => forRange (-N) (N + 1) (fun n s =>
      ({ mn := s.mn + 1
         a := upd s.a (L.product m |n| M N) (s.a (L.product m |n| M N) + 1 / (mscale m * nscale |n|) * fc s.mn)
         b := if |n| > 0 then upd s.b (L.product m |n| M N) (s.b (L.product m |n| M N) + (n.sign : K) * (1 / (mscale m * nscale |n|) * fc s.mn)) else s.b } : Conv K)) s) =
      (fun m s => forRange (-N) (N + 1) (rowBody (fun n => L.product m n M N) (nrm mscale nscale m) fc 1) s) := by
    funext m s
    congr 1
    funext n s
    simp [rowBody, nrm]
  rw [hbody]
  rw [if_pos (by rw [r1]; rfl)]
  refine ⟨_, _, rfl, ?_⟩
  intro m n h0 h1 h2 h3
  by_cases hm : m = 0
  · subst hm
    rw [(r2 n h2 h3).1, (r2 n h2 h3).2, (k2 0 n h0 h1 h2 h3).1, (k2 0 n h0 h1 h2 h3).2]
    rw [if_pos (by omega)]
    simp [idx_zero]
  · rw [(r3 m n (by omega) h1 h2 h3).1, (r3 m n (by omega) h1 h2 h3).2, (k2 m n h0 h1 h2 h3).1,
      (k2 m n h0 h1 h2 h3).2, if_neg (by omega)]
    by_cases hn : n = 0
    · subst hn; simp
    · simp [hm, hn]

/-- **closed form of `sin_to_sc_cs`** -/
theorem sin_to_sc_cs_eq (L : Layout) (M N : Int) (hM : 1 ≤ M) (hN : 0 ≤ N) (G : GoodLayout L M N)
    (mscale nscale fc sc0 cs0 : Int → K) :
    ∃ sc cs, sin_to_sc_cs L mscale nscale fc sc0 cs0 N M = .ok (sc, cs) ∧
      ∀ m n, 0 ≤ m → m < M → 0 ≤ n → n ≤ N →
        sc (L.product m n M N) =
          (if m = 0 then 0 else nrm mscale nscale m n *
            (if n = 0 then fc (idx N m n) else fc (idx N m n) + fc (idx N m (-n)))) ∧
        cs (L.product m n M N) =
          (if n = 0 then 0 else - (nrm mscale nscale m n *
            (if m = 0 then fc (idx N m n) else fc (idx N m n) - fc (idx N m (-n))))) := by
  have l0 := forRange_inv (lo := 1) (hi := N + 1) (by omega) (fun n (s : Conv K) =>
    { s with b := upd s.b (L.product 0 |n| M N) (-(n.sign : K) *
        (1 / (mscale 0 * nscale |n|) * fc s.mn)), mn := s.mn + 1 })
    (⟨1, fill0 sc0 (M * (N + 1)), fill0 cs0 (M * (N + 1))⟩ : Conv K)
    (fun j s => s.mn = j ∧ (∀ m n, 0 ≤ m → m < M → 0 ≤ n → n ≤ N →
      s.b (L.product m n M N) = (if m = 0 ∧ n < j ∧ n ≠ 0 then - (nrm mscale nscale 0 n * fc n) else 0) ∧
      s.a (L.product m n M N) = 0)) ?_ ?_
  rotate_left
  · refine ⟨rfl, fun m n h0 h1 h2 h3 => ?_⟩
    have := G.bound m n h0 h1 h2 h3
    simp only [fill0]
    rw [if_pos this, if_pos this, if_neg (by omega)]
    exact ⟨rfl, rfl⟩
  · rintro j s hj0 hj1 ⟨k1, k2⟩
    rw [abs_of_nonneg (by omega : 0 ≤ j), Int.sign_eq_one_of_pos (by omega)]
    refine ⟨by simp [k1], fun m n h0 h1 h2 h3 => ⟨?_, (k2 m n h0 h1 h2 h3).2⟩⟩
    by_cases hmn : m = 0 ∧ n = j
    · obtain ⟨rfl, rfl⟩ := hmn
      simp only [upd_same]
      have hn0 : n ≠ 0 := by omega
      rw [k1]
      simp [nrm, hn0]
    · have hne : L.product m n M N ≠ L.product 0 j M N := fun e =>
        hmn (G.inj m n 0 j h0 h1 h2 h3 (le_refl _) (by omega) (by omega) (by omega) e)
      simp only
      rw [upd_ne _ _ hne, (k2 m n h0 h1 h2 h3).1]
      have : (m = 0 ∧ n < j ∧ n ≠ 0) ↔ (m = 0 ∧ n < j + 1 ∧ n ≠ 0) := by omega
      simp only [this]
  obtain ⟨k1, k2⟩ := l0
  have rows := conv_rows L M N hM hN G (nrm mscale nscale) fc (-1) _ k1
  obtain ⟨r1, r2, r3⟩ := rows
  unfold sin_to_sc_cs
  simp only
  have hbody : (fun (m : Int) (s : Conv K) => forRange (-N) (N + 1) (fun n s =>
      ({ mn := s.mn + 1
         a := upd s.a (L.product m |n| M N) (s.a (L.product m |n| M N) + 1 / (mscale m * nscale |n|) * fc s.mn)
         b := if |n| > 0 then upd s.b (L.product m |n| M N) (s.b (L.product m |n| M N) + -(n.sign : K) * (1 / (mscale m * nscale |n|) * fc s.mn)) else s.b } : Conv K)) s) =
      (fun m s => forRange (-N) (N + 1) (rowBody (fun n => L.product m n M N) (nrm mscale nscale m) fc (-1)) s) := by
    funext m s
    congr 1
    funext n s
    simp [rowBody, nrm]
  rw [hbody]
  rw [if_pos (by rw [r1]; rfl)]
  refine ⟨_, _, rfl, ?_⟩
  intro m n h0 h1 h2 h3
  by_cases hm : m = 0
  · subst hm
    rw [(r2 n h2 h3).1, (r2 n h2 h3).2, (k2 0 n h0 h1 h2 h3).1, (k2 0 n h0 h1 h2 h3).2]
    by_cases hn : n = 0
    · subst hn; simp
    · have hn' : n < N + 1 := by omega
      simp [idx_zero, hn, hn']
  · rw [(r3 m n (by omega) h1 h2 h3).1, (r3 m n (by omega) h1 h2 h3).2, (k2 m n h0 h1 h2 h3).1,
      (k2 m n h0 h1 h2 h3).2]
    by_cases hn : n = 0
    · subst hn; simp [hm]
    · simp [hm, hn]

/-! ## tables and assignment loops -/

/-- generic assignment loop over the mode list: entry at the running counter gets `v m n` -/
theorem assign_rows {β : Type} (M N : Int) (hM : 1 ≤ M) (hN : 0 ≤ N) (v : Int → Int → β)
    (s : Int × (Int → β)) (hs : s.1 = N + 1) :
    let r := forRange 1 M (fun m s => forRange (-N) (N + 1)
      (fun n (s : Int × (Int → β)) => (s.1 + 1, upd s.2 s.1 (v m n))) s) s
    r.1 = mnMax M N ∧ (∀ i, i < N + 1 → r.2 i = s.2 i) ∧
    (∀ m n, 1 ≤ m → m < M → -N ≤ n → n ≤ N → r.2 (idx N m n) = v m n) := by
  intro r
  have key := forRange_inv (lo := 1) (hi := M) hM (fun m s => forRange (-N) (N + 1)
      (fun n (s : Int × (Int → β)) => (s.1 + 1, upd s.2 s.1 (v m n))) s) s
    (fun j r => r.1 = mnMax j N ∧ (∀ i, i < N + 1 → r.2 i = s.2 i) ∧
      (∀ m n, 1 ≤ m → m < j → -N ≤ n → n ≤ N → r.2 (idx N m n) = v m n)) ?_ ?_
  · exact key
  · exact ⟨by rw [hs]; simp [mnMax], fun _ _ => rfl, fun m n h1 h2 => by omega⟩
  · rintro j r' hj0 hj1 ⟨k1, k2, k3⟩
    have hb : N + 1 ≤ mnMax j N := by
      unfold mnMax
      have := Int.mul_nonneg (show 0 ≤ j - 1 by omega) (show 0 ≤ 2 * N + 1 by omega)
      omega
    have inner := forRange_inv (lo := -N) (hi := N + 1) (by omega)
      (fun n (s : Int × (Int → β)) => (s.1 + 1, upd s.2 s.1 (v j n))) r'
      (fun l q => q.1 = mnMax j N + (l + N) ∧ (∀ i, i < mnMax j N → q.2 i = r'.2 i) ∧
        (∀ n, -N ≤ n → n < l → q.2 (idx N j n) = v j n)) ?_ ?_
    · obtain ⟨i1, i2, i3⟩ := inner
      refine ⟨by rw [i1]; unfold mnMax; ring, ?_, ?_⟩
      · intro i hi; rw [i2 i (by omega), k2 i hi]
      · intro m n h0 h1 h2 h3
        by_cases hm : m = j
        · subst hm; exact i3 n h2 (by omega)
        · rw [i2, k3 m n h0 (by omega) h2 h3]
          exact (idx_range (M := j) hN ⟨by omega, by omega, h3, by rw [if_neg (by omega)]; exact h2⟩).2
    · exact ⟨by rw [k1]; ring, fun _ _ => rfl, fun n h1 h2 => by omega⟩
    · rintro l q hl0 hl1 ⟨i1, i2, i3⟩
      refine ⟨by simp only [i1]; ring, ?_, ?_⟩
      · intro i hi
        simp only
        rw [upd_ne _ _ (by omega), i2 i hi]
      · intro n h0 h1
        have e : idx N j n = mnMax j N + (n + N) := by rw [idx_pos (by omega)]; unfold mnMax; ring
        simp only
        by_cases hn : n = l
        · subst hn; rw [e, i1, upd_same]
        · rw [upd_ne _ _ (by omega), i3 n h0 (by omega)]

theorem assign_first {β : Type} (N a : Int) (ha : a ≤ N + 1) (v : Int → β)
    (s : Int × (Int → β)) (hs : s.1 = a) :
    let r := forRange a (N + 1) (fun n (s : Int × (Int → β)) => (s.1 + 1, upd s.2 s.1 (v n))) s
    r.1 = N + 1 ∧ (∀ i, i < a → r.2 i = s.2 i) ∧ (∀ n, a ≤ n → n ≤ N → r.2 n = v n) := by
  intro r
  have key := forRange_inv (lo := a) (hi := N + 1) ha
      (fun n (s : Int × (Int → β)) => (s.1 + 1, upd s.2 s.1 (v n))) s
    (fun j r => r.1 = j ∧ (∀ i, i < a → r.2 i = s.2 i) ∧ (∀ n, a ≤ n → n < j → r.2 n = v n)) ?_ ?_
  · obtain ⟨k1, k2, k3⟩ := key
    exact ⟨k1, k2, fun n h0 h1 => k3 n h0 (by omega)⟩
  · exact ⟨hs, fun _ _ => rfl, fun n h0 h1 => by omega⟩
  · rintro j r' h0 h1 ⟨k1, k2, k3⟩
    refine ⟨by simp [k1], ?_, ?_⟩
    · intro i hi; simp only; rw [upd_ne _ _ (by omega), k2 i hi]
    · intro n h2 h3
      simp only
      by_cases hn : n = j
      · subst hn; rw [k1, upd_same]
      · rw [upd_ne _ _ (by omega), k3 n h2 (by omega)]

/-- **closed form of `cc_ss_to_cos`** -/
theorem cc_ss_to_cos_eq (L : Layout) (M N : Int) (hM : 1 ≤ M) (hN : 0 ≤ N)
    (mscale nscale cc ss f0 : Int → K) :
    ∃ fc, cc_ss_to_cos L mscale nscale cc ss f0 N M = .ok fc ∧
      (∀ n, 0 ≤ n → n ≤ N → fc (idx N 0 n) = cc (L.product 0 n M N) / nrm mscale nscale 0 n) ∧
      (∀ m n, 1 ≤ m → m < M → -N ≤ n → n ≤ N → fc (idx N m n) =
        if n = 0 then cc (L.product m 0 M N) / nrm mscale nscale m 0
        else (1 / 2) * (cc (L.product m |n| M N) + (n.sign : K) * ss (L.product m |n| M N)) /
          nrm mscale nscale m |n|) := by
  obtain ⟨a1, a2, a3⟩ := assign_first N 0 (by omega)
    (fun n => cc (L.product 0 n M N) / (1 / (mscale 0 * nscale n))) (0, fill0 f0 (mnMax M N)) rfl
  obtain ⟨b1, b2, b3⟩ := assign_rows M N hM hN
    (fun m n => if |n| = 0 then cc (L.product m |n| M N) / (1 / (mscale m * nscale |n|))
      else (1 / 2) * (cc (L.product m |n| M N) + (n.sign : K) * ss (L.product m |n| M N)) /
        (1 / (mscale m * nscale |n|))) _ a1
  unfold cc_ss_to_cos
  dsimp only
  split
  swap
  · rename_i hne; exact absurd b1 hne
  refine ⟨_, rfl, ?_, ?_⟩
  · intro n h0 h1
    exact (by rw [idx_zero]; exact (b2 n (by omega)).trans (a3 n h0 h1))
  · intro m n h0 h1 h2 h3
    refine (b3 m n h0 h1 h2 h3).trans ?_
    by_cases hn : n = 0
    · subst hn; simp [nrm]
    · simp [hn, nrm]

/-- **closed form of `sc_cs_to_sin`** -/
theorem sc_cs_to_sin_eq (L : Layout) (M N : Int) (hM : 1 ≤ M) (hN : 0 ≤ N)
    (mscale nscale sc cs f0 : Int → K) :
    ∃ fc, sc_cs_to_sin L mscale nscale sc cs f0 N M = .ok fc ∧
      fc (idx N 0 0) = 0 ∧
      (∀ n, 1 ≤ n → n ≤ N → fc (idx N 0 n) = - cs (L.product 0 n M N) / nrm mscale nscale 0 n) ∧
      (∀ m n, 1 ≤ m → m < M → -N ≤ n → n ≤ N → fc (idx N m n) =
        if n = 0 then sc (L.product m 0 M N) / nrm mscale nscale m 0
        else (1 / 2) * (sc (L.product m |n| M N) - (n.sign : K) * cs (L.product m |n| M N)) /
          nrm mscale nscale m |n|) := by
  obtain ⟨a1, a2, a3⟩ := assign_first N 1 (by omega)
    (fun n => - cs (L.product 0 n M N) / (1 / (mscale 0 * nscale n))) (1, fill0 f0 (mnMax M N)) rfl
  obtain ⟨b1, b2, b3⟩ := assign_rows M N hM hN
    (fun m n => if |n| = 0 then sc (L.product m |n| M N) / (1 / (mscale m * nscale |n|))
      else (1 / 2) * (sc (L.product m |n| M N) - (n.sign : K) * cs (L.product m |n| M N)) /
        (1 / (mscale m * nscale |n|))) _ a1
  unfold sc_cs_to_sin
  dsimp only
  split
  swap
  · rename_i hne; exact absurd b1 hne
  refine ⟨_, rfl, ?_, ?_, ?_⟩
  · rw [idx_zero]
    refine (b2 0 (by omega)).trans ((a2 0 (by omega)).trans ?_)
    have : 0 < mnMax M N := by
      unfold mnMax
      have := Int.mul_nonneg (show 0 ≤ M - 1 by omega) (show 0 ≤ 2 * N + 1 by omega)
      omega
    simp [fill0, this]
  · intro n h0 h1
    exact (by rw [idx_zero]; exact (b2 n (by omega)).trans (a3 n h0 h1))
  · intro m n h0 h1 h2 h3
    refine (b3 m n h0 h1 h2 h3).trans ?_
    by_cases hn : n = 0
    · subst hn; simp [nrm]
    · simp [hn, nrm]

end Verif.Fourier
