import Mathlib.Algebra.BigOperators.Field
import Verif.Nestor.Coeffs

/-! # The polynomials with the trinomial coefficients -/
namespace Verif.Nestor
open Verif

/-- `∑_A tri(A) t^(m+n-2A)` -/
noncomputable def pmn (m n : ℕ) (t : ℝ) : ℝ := ∑ A ∈ Finset.range (min m n + 1), tri A m n * t ^ (m + n - 2 * A)

theorem tri_zero {A m n : ℕ} (h : ¬(A ≤ m ∧ A ≤ n)) : tri A m n = 0 := by unfold tri; rw [if_neg h]

theorem pmn_eq (m n : ℕ) (t : ℝ) (K : ℕ) (hK : min m n + 1 ≤ K) :
    pmn m n t = ∑ A ∈ Finset.range K, tri A m n * t ^ (m + n - 2 * A) := by
  unfold pmn
  refine Finset.sum_subset (fun A hA => Finset.mem_range.2 (lt_of_lt_of_le (Finset.mem_range.1 hA) hK)) fun A _ hA => ?_
  rw [tri_zero, zero_mul]
  intro h
  exact hA (Finset.mem_range.2 (by omega))

theorem inv_fact (a : ℕ) : ((a + 1 : ℕ) : ℝ) / ((a + 1).factorial : ℝ) = 1 / (a.factorial : ℝ) := by
  have h : ((a.factorial : ℕ) : ℝ) ≠ 0 := by exact_mod_cast a.factorial_ne_zero
  have h1 : ((a : ℝ) + 1) ≠ 0 := by positivity
  rw [Nat.factorial_succ]
  push_cast
  field_simp

/-- the product form of a trinomial with `N + 1 = a + b + c` -/
theorem tri_split (a b c N : ℕ) (h : a + b + c = N + 1) :
    ((N + 1).factorial : ℝ) / (a.factorial * b.factorial * c.factorial)
      = (N.factorial : ℝ) * ((a : ℝ) / a.factorial) * (1 / b.factorial) * (1 / c.factorial)
        + (N.factorial : ℝ) * (1 / a.factorial) * ((b : ℝ) / b.factorial) * (1 / c.factorial)
        + (N.factorial : ℝ) * (1 / a.factorial) * (1 / b.factorial) * ((c : ℝ) / c.factorial) := by
  have fne : ∀ r : ℕ, ((r.factorial : ℕ) : ℝ) ≠ 0 := fun r => by exact_mod_cast r.factorial_ne_zero
  have h1 := fne a
  have h2 := fne b
  have h3 := fne c
  have e : ((N : ℝ) + 1) = a + b + c := by exact_mod_cast h.symm
  rw [Nat.factorial_succ]
  push_cast
  rw [e]
  field_simp

/-- Pascal's rule -/
theorem tri_pascal (A m n : ℕ) :
    tri (A + 1) (m + 1) (n + 1) = tri A m n - tri (A + 1) (m + 1) n + tri (A + 1) m (n + 1) := by
  by_cases h : A ≤ m ∧ A ≤ n
  · obtain ⟨h1, h2⟩ := h
    obtain ⟨q, rfl⟩ : ∃ q, m = A + q := ⟨m - A, by omega⟩
    obtain ⟨p, rfl⟩ : ∃ p, n = A + p := ⟨n - A, by omega⟩
    have hs := tri_split (A + 1) p q (A + p + q) (by ring)
    have e1 : tri (A + 1) (A + q + 1) (A + p + 1)
        = (-1) ^ p * (((A + p + q + 1).factorial : ℝ) / ((A + 1).factorial * p.factorial * q.factorial)) := by
      unfold tri
      rw [if_pos (by omega), mul_div_assoc]
      have c1 : A + p + 1 - (A + 1) = p := by omega
      have c2 : A + q + 1 + (A + p + 1) - (A + 1) = A + p + q + 1 := by omega
      have c3 : A + q + 1 - (A + 1) = q := by omega
      rw [c1, c2, c3]
    have e2 : tri A (A + q) (A + p)
        = (-1) ^ p * ((A + p + q).factorial * (((A + 1 : ℕ) : ℝ) / (A + 1).factorial) * (1 / p.factorial) * (1 / q.factorial)) := by
      unfold tri
      rw [if_pos (by omega), inv_fact]
      have c1 : A + p - A = p := by omega
      have c2 : A + q + (A + p) - A = A + p + q := by omega
      have c3 : A + q - A = q := by omega
      rw [c1, c2, c3]
      ring
    have e3 : - tri (A + 1) (A + q + 1) (A + p)
        = (-1) ^ p * ((A + p + q).factorial * (1 / (A + 1).factorial) * ((p : ℝ) / p.factorial) * (1 / q.factorial)) := by
      cases p with
      | zero => rw [tri_zero (by omega)]; simp
      | succ p =>
        unfold tri
        rw [if_pos (by omega), inv_fact]
        have c1 : A + (p + 1) - (A + 1) = p := by omega
        have c2 : A + q + 1 + (A + (p + 1)) - (A + 1) = A + (p + 1) + q := by omega
        have c3 : A + q + 1 - (A + 1) = q := by omega
        rw [c1, c2, c3]
        ring
    have e4 : tri (A + 1) (A + q) (A + p + 1)
        = (-1) ^ p * ((A + p + q).factorial * (1 / (A + 1).factorial) * (1 / p.factorial) * ((q : ℝ) / q.factorial)) := by
      cases q with
      | zero => rw [tri_zero (by omega)]; simp
      | succ q =>
        unfold tri
        rw [if_pos (by omega), inv_fact]
        have c1 : A + p + 1 - (A + 1) = p := by omega
        have c2 : A + (q + 1) + (A + p + 1) - (A + 1) = A + p + (q + 1) := by omega
        have c3 : A + (q + 1) - (A + 1) = q := by omega
        rw [c1, c2, c3]
        ring
    rw [e1, hs, e4, sub_eq_add_neg, e3, e2]
    ring
  · rw [tri_zero (by omega), tri_zero h, tri_zero (by omega), tri_zero (by omega)]; ring

/-- the row `A = 0` -/
theorem tri_pascal_zero (m n : ℕ) : tri 0 (m + 1) (n + 1) = - tri 0 (m + 1) n + tri 0 m (n + 1) := by
  unfold tri
  rw [if_pos (by omega), if_pos (by omega), if_pos (by omega)]
  have hs := tri_split 0 (n + 1) (m + 1) (m + n + 1) (by ring)
  rw [inv_fact, inv_fact] at hs
  have c1 : m + 1 + (n + 1) - 0 = m + n + 1 + 1 := by omega
  have c2 : m + 1 + n - 0 = m + n + 1 := by omega
  have c3 : m + (n + 1) - 0 = m + n + 1 := by omega
  rw [c1, c2, c3]
  simp only [Nat.sub_zero, mul_div_assoc]
  rw [hs]
  simp only [Nat.factorial_zero, Nat.cast_zero, Nat.cast_one, pow_succ]
  ring

theorem pmn_succ (m n : ℕ) (t : ℝ) :
    pmn (m + 1) (n + 1) t = -t * pmn (m + 1) n t + t * pmn m (n + 1) t + pmn m n t := by
  have hK : ∀ a b, a ≤ m + 1 → b ≤ n + 1 → pmn a b t
      = (∑ A ∈ Finset.range (m + n + 4), tri (A + 1) a b * t ^ (a + b - 2 * (A + 1))) + tri 0 a b * t ^ (a + b) := by
    intro a b ha hb
    rw [pmn_eq a b t (m + n + 4 + 1) (by omega), Finset.sum_range_succ']
    simp
  rw [hK (m + 1) (n + 1) le_rfl le_rfl, hK (m + 1) n le_rfl (by omega), hK m (n + 1) (by omega) le_rfl,
    pmn_eq m n t (m + n + 4) (by omega)]
  have hsum : (∑ A ∈ Finset.range (m + n + 4), tri (A + 1) (m + 1) (n + 1) * t ^ (m + 1 + (n + 1) - 2 * (A + 1)))
      = -t * (∑ A ∈ Finset.range (m + n + 4), tri (A + 1) (m + 1) n * t ^ (m + 1 + n - 2 * (A + 1)))
        + t * (∑ A ∈ Finset.range (m + n + 4), tri (A + 1) m (n + 1) * t ^ (m + (n + 1) - 2 * (A + 1)))
        + ∑ A ∈ Finset.range (m + n + 4), tri A m n * t ^ (m + n - 2 * A) := by
    rw [Finset.mul_sum, Finset.mul_sum, ← Finset.sum_add_distrib, ← Finset.sum_add_distrib]
    refine Finset.sum_congr rfl fun A _ => ?_
    rw [tri_pascal]
    have c1 : m + 1 + (n + 1) - 2 * (A + 1) = m + n - 2 * A := by omega
    have c2 : tri (A + 1) (m + 1) n * t ^ (m + n - 2 * A) = t * (tri (A + 1) (m + 1) n * t ^ (m + 1 + n - 2 * (A + 1))) := by
      by_cases h : A + 1 ≤ m + 1 ∧ A + 1 ≤ n
      · have : m + n - 2 * A = (m + 1 + n - 2 * (A + 1)) + 1 := by omega
        rw [this, pow_succ]; ring
      · rw [tri_zero h]; ring
    have c3 : tri (A + 1) m (n + 1) * t ^ (m + n - 2 * A) = t * (tri (A + 1) m (n + 1) * t ^ (m + (n + 1) - 2 * (A + 1))) := by
      by_cases h : A + 1 ≤ m ∧ A + 1 ≤ n + 1
      · have : m + n - 2 * A = (m + (n + 1) - 2 * (A + 1)) + 1 := by omega
        rw [this, pow_succ]; ring
      · rw [tri_zero h]; ring
    rw [c1, add_mul, sub_mul, c2, c3]
    ring
  rw [hsum, tri_pascal_zero]
  have c4 : t ^ (m + 1 + (n + 1)) = t * t ^ (m + 1 + n) := by rw [← pow_succ']; congr 1
  have c5 : t ^ (m + (n + 1)) = t ^ (m + 1 + n) := by congr 1; omega
  rw [c4, c5]
  ring

theorem pmn_zero_right (m : ℕ) (t : ℝ) : pmn m 0 t = t ^ m := by
  have fne : ((m.factorial : ℕ) : ℝ) ≠ 0 := by exact_mod_cast m.factorial_ne_zero
  simp [pmn, tri, fne]

theorem pmn_zero_left (n : ℕ) (t : ℝ) : pmn 0 n t = (-t) ^ n := by
  have fne : ((n.factorial : ℕ) : ℝ) ≠ 0 := by exact_mod_cast n.factorial_ne_zero
  simp [pmn, tri, fne]
  rw [neg_pow t n]

/-- A function of two mode numbers with these recurrences is `π` times the polynomials. -/
theorem pmn_unique {I : ℕ → ℕ → ℝ} {t c : ℝ} (h0 : I 0 0 = c) (h1 : ∀ m, I (m + 1) 0 = t * I m 0)
    (h2 : ∀ n, I 0 (n + 1) = -t * I 0 n)
    (h3 : ∀ m n, I (m + 1) (n + 1) = -t * I (m + 1) n + t * I m (n + 1) + I m n) (m n : ℕ) : I m n = c * pmn m n t := by
  have hm : ∀ m, I m 0 = c * pmn m 0 t := by
    intro m
    induction m with
    | zero => rw [h0, pmn_zero_right]; simp
    | succ m ih => rw [h1, ih, pmn_zero_right, pmn_zero_right, pow_succ]; ring
  induction n generalizing m with
  | zero => exact hm m
  | succ n ihn =>
    induction m with
    | zero =>
      rw [h2, ihn, pmn_zero_left, pmn_zero_left, pow_succ]; ring
    | succ m ihm => rw [h3, ihn, ihn, ihm, pmn_succ]; ring

/-- the sum over `l` of the array entries is the polynomial -/
theorem triAt_sum (m n L : ℕ) (hL : m + n ≤ L) (t : ℝ) :
    ∑ l ∈ Finset.range (L + 1), triAt l m n * t ^ l = pmn m n t := by
  unfold triAt pmn
  simp_rw [Finset.sum_mul]
  rw [Finset.sum_comm]
  refine Finset.sum_congr rfl fun A hA => ?_
  rw [Finset.mem_range] at hA
  rw [Finset.sum_eq_single (m + n - 2 * A)]
  · rw [if_pos]; push_cast [show 2 * A ≤ m + n by omega]; rfl
  · intro l _ hl
    rw [if_neg, zero_mul]
    intro e; apply hl; omega
  · intro h; exact absurd (Finset.mem_range.2 (by omega)) h

/-- the combination of polynomials that belongs to `cmns` -/
noncomputable def pmns : ℕ → ℕ → ℝ → ℝ
  | 0, 0, t => pmn 0 0 t
  | 0, n + 1, t => (pmn 0 (n + 1) t + pmn 0 n t) / 2
  | m + 1, 0, t => (pmn (m + 1) 0 t + pmn m 0 t) / 2
  | m + 1, n + 1, t => (pmn (m + 1) (n + 1) t + pmn (m + 1) n t + pmn m (n + 1) t + pmn m n t) / 2

theorem cmns_poly (nf mf : ℕ) (old : Int → ℝ) (n m : ℕ) (hn : n ≤ nf) (hm : m ≤ mf) (t : ℝ) :
    ∑ l ∈ Finset.range (mf + nf + 1), computeCmns nf mf (computeCmn nf mf) old (lnm nf mf l n m) * t ^ l = pmns m n t := by
  have hc : ∀ (l : ℕ) (n m : ℕ), n ≤ nf → m ≤ mf → computeCmn nf mf (lnm nf mf l n m) = triAt l m n := fun l n m h1 h2 =>
    computeCmn_eq (by omega) (by omega) n m (by omega) (by omega) l
  have hs : ∀ (n m : ℕ), n ≤ nf → m ≤ mf → ∑ l ∈ Finset.range (mf + nf + 1), triAt l m n * t ^ l = pmn m n t := fun n m h1 h2 =>
    triAt_sum m n (mf + nf) (by omega) t
  have hv : ∀ l ∈ Finset.range (mf + nf + 1), computeCmns nf mf (computeCmn nf mf) old (lnm nf mf l n m) * t ^ l = _ := fun l hl =>
    congrArg (· * t ^ l) (computeCmns_eq (nf := nf) (mf := mf) (by omega) (by omega) (computeCmn nf mf) old n m (by omega) (by omega)
      (by omega) (by omega) l (by omega) (by rw [Finset.mem_range] at hl; omega))
  rw [Finset.sum_congr rfl hv]
  rcases m with _ | m <;> rcases n with _ | n
  · simp only [pmns, ← hs 0 0 hn hm]
    refine Finset.sum_congr rfl fun l _ => ?_
    rw [if_pos (by simp), hc l 0 0 hn hm]
  · simp only [pmns, ← hs (n + 1) 0 hn hm, ← hs n 0 (by omega) hm, ← Finset.sum_add_distrib, Finset.sum_div]
    refine Finset.sum_congr rfl fun l _ => ?_
    have e : (((n + 1 : ℕ) : Int) - 1) = (n : Int) := by push_cast; ring
    rw [if_neg (by omega), if_pos (by omega), e, hc l (n + 1) 0 hn hm, hc l n 0 (by omega) hm]
    ring
  · simp only [pmns, ← hs 0 (m + 1) hn hm, ← hs 0 m hn (by omega), ← Finset.sum_add_distrib, Finset.sum_div]
    refine Finset.sum_congr rfl fun l _ => ?_
    have e : (((m + 1 : ℕ) : Int) - 1) = (m : Int) := by push_cast; ring
    rw [if_neg (by omega), if_neg (by omega), if_pos (by omega), e, hc l 0 (m + 1) hn hm,
      hc l 0 m hn (by omega)]
    ring
  · simp only [pmns, ← hs (n + 1) (m + 1) hn hm, ← hs n (m + 1) (by omega) hm, ← hs (n + 1) m hn (by omega),
      ← hs n m (by omega) (by omega), ← Finset.sum_add_distrib, Finset.sum_div]
    refine Finset.sum_congr rfl fun l _ => ?_
    have e : (((m + 1 : ℕ) : Int) - 1) = (m : Int) := by push_cast; ring
    have e' : (((n + 1 : ℕ) : Int) - 1) = (n : Int) := by push_cast; ring
    rw [if_neg (by omega), if_neg (by omega), if_neg (by omega), e, e',
      hc l (n + 1) (m + 1) hn hm, hc l n (m + 1) (by omega) hm, hc l (n + 1) m hn (by omega), hc l n m (by omega) (by omega)]
    ring

end Verif.Nestor
