import Mathlib.Data.Nat.Factorial.Basic
import Mathlib.Data.Nat.Cast.Order.Field
import Mathlib.Tactic.FieldSimp
import Mathlib.Tactic.LinearCombination
import Verif.Nestor.Singular

/-! # The coefficients `cmn` are signed trinomial coefficients -/
namespace Verif.Nestor
open Verif

/-- signed trinomial coefficient: `(-1)^p N! / (A! p! q!)` with `p = n - A`, `q = m - A`, `N = A + p + q` -/
noncomputable def tri (A m n : ℕ) : ℝ :=
  if A ≤ m ∧ A ≤ n then (-1) ^ (n - A) * ((m + n - A).factorial : ℝ) / (A.factorial * (n - A).factorial * (m - A).factorial)
  else 0

theorem lnm_inj {nf mf l n m l' n' m' : Int} (hn : 0 ≤ n) (hn2 : n ≤ nf) (hm : 0 ≤ m) (hm2 : m ≤ mf)
    (kn : 0 ≤ n') (kn2 : n' ≤ nf) (km : 0 ≤ m') (km2 : m' ≤ mf) (h : lnm nf mf l n m = lnm nf mf l' n' m') :
    l = l' ∧ n = n' ∧ m = m' := by
  unfold lnm at h
  obtain ⟨h1, h2⟩ := flat_inj hm (by omega) km (by omega) h
  obtain ⟨h3, h4⟩ := flat_inj hn (by omega) kn (by omega) h1
  exact ⟨h3, h4, h2⟩

theorem cmnFactors_eq (s k : ℕ) (h : k ≤ s) :
    cmnFactors s k = ((s.factorial : ℝ) / (s - k).factorial, (k.factorial : ℝ)) := by
  unfold cmnFactors
  have := forRange_inv (lo := 1) (hi := (k : Int) + 1) (by omega)
    (fun i (f : ℝ × ℝ) => (f.1 * (((s : Int) - i + 1 : Int) : ℝ), f.2 * (i : ℝ))) (1, 1)
    (fun i f => ∀ j : ℕ, i = j + 1 → f = ((s.factorial : ℝ) / (s - j).factorial, (j.factorial : ℝ)))
    (by
      intro j hj
      have : j = 0 := by omega
      subst this
      have : ((s.factorial : ℕ) : ℝ) ≠ 0 := by exact_mod_cast s.factorial_ne_zero
      simp [this])
    (by
      intro i f h1 h2 ih j hj
      obtain ⟨j', rfl⟩ : ∃ j', j = j' + 1 := ⟨j - 1, by omega⟩
      rw [ih j' (by omega)]
      obtain ⟨r, hr⟩ : ∃ r, s = r + (j' + 1) := ⟨s - (j' + 1), by omega⟩
      have e1 : s - j' = r + 1 := by omega
      have e2 : s - (j' + 1) = r := by omega
      have e3 : (i : Int) = j' + 1 := by omega
      have e4 : ((s : Int) - i + 1) = ((r + 1 : ℕ) : Int) := by push_cast; omega
      rw [e1, e2, e4, e3, Nat.factorial_succ, Nat.factorial_succ]
      have hf : ((r.factorial : ℕ) : ℝ) ≠ 0 := by exact_mod_cast r.factorial_ne_zero
      have hr1 : ((r : ℝ) + 1) ≠ 0 := by positivity
      ext
      · push_cast
        field_simp
      · push_cast
        ring)
  exact this k rfl

/-- the loop over `l` for one mode: the entries of the mode are set where `l` has the right parity and range -/
theorem cmnMode_set {nf mf : Int} (n m : ℕ) (hn : (n : Int) ≤ nf) (hm : (m : Int) ≤ mf) (c : Int → ℝ) :
    (∀ A : ℕ, A ≤ m → A ≤ n → cmnMode nf mf n m c (lnm nf mf (m + n - 2 * A) n m) = tri A m n) ∧
    (∀ l n' m' : Int, 0 ≤ n' → n' ≤ nf → 0 ≤ m' → m' ≤ mf →
      ¬(n' = n ∧ m' = m ∧ ∃ A : ℕ, A ≤ m ∧ A ≤ n ∧ l = m + n - 2 * A) →
      cmnMode nf mf n m c (lnm nf mf l n' m') = c (lnm nf mf l n' m')) := by
  set k : ℕ := ((m : Int) - n).natAbs with hk
  have ek : |(m : Int) - n| = (k : Int) := by rw [hk]; exact (Int.natCast_natAbs _).symm
  set s : ℕ := max m n with hs
  have es : max (m : Int) n = (s : Int) := by rw [hs]; push_cast; rfl
  set u : ℕ := min m n with hu
  have hsk : s = u + k := by omega
  have hj : ((m : Int) + n - k).tdiv 2 + 1 = (u : Int) + 1 := by
    rw [Int.tdiv_eq_ediv_of_nonneg (by omega)]; omega
  unfold cmnMode
  simp only [ek, es, hj]
  rw [cmnFactors_eq s k (by omega)]
  have key := forRange_inv (lo := 0) (hi := (u : Int) + 1) (by omega)
    (fun i st => cmnStep nf mf n m (m + n) k (k + 2 * i) st)
    { cmn := c, f1 := ((s.factorial : ℝ) / (s - k).factorial), f2 := (k.factorial : ℝ), f3 := 1,
      sign := if (max 0 ((n : Int) - m)).tmod 2 = 0 then 1 else -1 }
    (fun i st => ∀ j : ℕ, i = j → 
      (j ≤ u → st.f1 = ((s + j).factorial : ℝ) / (u - j).factorial) ∧ st.f2 = ((k + j).factorial : ℝ) ∧ st.f3 = (j.factorial : ℝ) ∧
      st.sign = (-1) ^ (n - m + j) ∧
      (∀ A : ℕ, A ≤ u → u < A + j → st.cmn (lnm nf mf (m + n - 2 * A) n m) = tri A m n) ∧
      (∀ l n' m' : Int, 0 ≤ n' → n' ≤ nf → 0 ≤ m' → m' ≤ mf →
        ¬(n' = n ∧ m' = m ∧ ∃ A : ℕ, A ≤ m ∧ A ≤ n ∧ l = m + n - 2 * A) →
        st.cmn (lnm nf mf l n' m') = c (lnm nf mf l n' m')))
    (by
      intro j hj
      have : j = 0 := by omega
      subst this
      refine ⟨fun _ => ?_, ?_, by simp, ?_, fun A h1 h2 => by omega, fun _ _ _ _ _ _ _ _ => rfl⟩
      · have : s - k = u := by omega
        simp [this]
      · simp
      · rw [Int.tmod_eq_emod_of_nonneg (by omega)]
        rcases Nat.even_or_odd (n - m) with h | h
        · rw [add_zero, h.neg_one_pow, if_pos]
          obtain ⟨r, hr⟩ := h; omega
        · rw [add_zero, h.neg_one_pow, if_neg]
          obtain ⟨r, hr⟩ := h; omega)
    (by
      intro i st h1 h2 ih j hj
      obtain ⟨j', rfl⟩ : ∃ j', j = j' + 1 := ⟨j - 1, by omega⟩
      obtain ⟨a1, a2, a3, a4, a5, a6⟩ := ih j' (by omega)
      have hj' : j' ≤ u := by omega
      specialize a1 hj'
      have ei : (i : Int) = j' := by omega
      subst ei
      have fne : ∀ r : ℕ, ((r.factorial : ℕ) : ℝ) ≠ 0 := fun r => by exact_mod_cast r.factorial_ne_zero
      refine ⟨fun hju => ?_, ?_, ?_, ?_, ?_, ?_⟩
      · show st.f1 * _ = _
        obtain ⟨r, hr⟩ : ∃ r, u = r + (j' + 1) := ⟨u - (j' + 1), by omega⟩
        have e1 : u - j' = r + 1 := by omega
        have e2 : u - (j' + 1) = r := by omega
        have e3 : (((k : Int) + 2 * j' + 2 + (m + n)) * ((m + n) - ((k : Int) + 2 * j')) : Int)
            = 4 * (((s + j' + 1 : ℕ) : Int) * ((r + 1 : ℕ) : Int)) := by
          have c1 : ((k : Int) + 2 * j' + 2 + (m + n)) = 2 * ((s + j' + 1 : ℕ) : Int) := by push_cast; omega
          have c2 : ((m + n) - ((k : Int) + 2 * j')) = 2 * ((r + 1 : ℕ) : Int) := by push_cast; omega
          rw [c1, c2]; ring
        rw [a1, e1, e2, e3, Nat.factorial_succ r, ← add_assoc, Nat.factorial_succ (s + j')]
        have := fne r
        have hr1 : ((r : ℝ) + 1) ≠ 0 := by positivity
        push_cast
        field_simp
        ring
      · show st.f2 * _ = _
        have e3 : ((k : Int) + 2 * j' + 2 + k) = 2 * ((k + j' + 1 : ℕ) : Int) := by push_cast; ring
        rw [a2, e3, ← add_assoc, Nat.factorial_succ (k + j')]
        push_cast
        ring
      · show st.f3 * _ = _
        have e3 : ((k : Int) + 2 * j' + 2 - k) = 2 * ((j' + 1 : ℕ) : Int) := by push_cast; ring
        rw [a3, e3, Nat.factorial_succ j']
        push_cast
        ring
      · show -st.sign = _
        rw [a4, ← add_assoc, pow_succ]; ring
      · intro A hA hAj
        show upd st.cmn _ _ _ = _
        by_cases hc : u < A + j'
        · rw [upd_ne, a5 A hA hc]
          intro h
          obtain ⟨h1, -, -⟩ := lnm_inj (by omega) hn (by omega) hm (by omega) hn (by omega) hm h
          omega
        · have : ((m : Int) + n - 2 * A) = k + 2 * (j' : Int) := by omega
          rw [this, upd_same, a1, a2, a3, a4]
          unfold tri
          rw [if_pos (by omega)]
          have e1 : u - j' = A := by omega
          have e2 : m + n - A = s + j' := by omega
          have e3 : n - A = n - m + j' := by omega
          rw [e1, e2, e3]
          have f1 := fne A
          have f2 := fne (k + j')
          have f3 := fne j'
          rcases le_total m n with hmn | hmn
          · have e4 : m - A = j' := by omega
            have e5 : n - m + j' = k + j' := by omega
            rw [e4, e5]
            field_simp
          · have e4 : m - A = k + j' := by omega
            have e5 : n - m + j' = j' := by omega
            rw [e4, e5]
            field_simp
      · intro l n' m' b1 b2 b3 b4 hne
        show upd st.cmn _ _ _ = _
        rw [upd_ne, a6 l n' m' b1 b2 b3 b4 hne]
        intro h
        obtain ⟨h1, h2, h3⟩ := lnm_inj b1 b2 b3 b4 (by omega) hn (by omega) hm h
        exact hne ⟨h2, h3, u - j', by omega, by omega, by omega⟩)
  obtain ⟨-, -, -, -, a5, a6⟩ := key (u + 1) (by push_cast; rfl)
  exact ⟨fun A h1 h2 => a5 A (by omega) (by omega), a6⟩

/-- the sum of the trinomial coefficients with `m + n - 2 A = l`: at most one term -/
noncomputable def triAt (l : Int) (m n : ℕ) : ℝ :=
  ∑ A ∈ Finset.range (min m n + 1), if l = m + n - 2 * A then tri A m n else 0

theorem triAt_some (A m n : ℕ) (h1 : A ≤ m) (h2 : A ≤ n) : triAt (m + n - 2 * A) m n = tri A m n := by
  unfold triAt
  rw [Finset.sum_eq_single A]
  · rw [if_pos rfl]
  · intro B _ hB; rw [if_neg]; omega
  · intro h; exact absurd (Finset.mem_range.2 (by omega)) h

theorem triAt_none (l : Int) (m n : ℕ) (h : ¬∃ A : ℕ, A ≤ m ∧ A ≤ n ∧ l = m + n - 2 * A) : triAt l m n = 0 := by
  unfold triAt
  refine Finset.sum_eq_zero fun B hB => ?_
  rw [if_neg]
  intro e
  rw [Finset.mem_range] at hB
  exact h ⟨B, by omega, by omega, e⟩

theorem cmnMode_at {nf mf : Int} (n m : ℕ) (hn : (n : Int) ≤ nf) (hm : (m : Int) ≤ mf) (c : Int → ℝ) (l n' m' : Int)
    (b1 : 0 ≤ n') (b2 : n' ≤ nf) (b3 : 0 ≤ m') (b4 : m' ≤ mf) (h0 : n' = n → m' = m → c (lnm nf mf l n' m') = 0) :
    cmnMode nf mf n m c (lnm nf mf l n' m') = if n' = n ∧ m' = m then triAt l m n else c (lnm nf mf l n' m') := by
  obtain ⟨k1, k2⟩ := cmnMode_set n m hn hm c
  by_cases h : n' = n ∧ m' = m
  · obtain ⟨rfl, rfl⟩ := h
    rw [if_pos ⟨rfl, rfl⟩]
    by_cases hA : ∃ A : ℕ, A ≤ m ∧ A ≤ n ∧ l = m + n - 2 * A
    · obtain ⟨A, h1, h2, rfl⟩ := hA
      rw [k1 A h1 h2, triAt_some A m n h1 h2]
    · rw [k2 l n m b1 b2 b3 b4 (fun h => hA h.2.2), h0 rfl rfl, triAt_none l m n hA]
  · rw [if_neg h, k2 l n' m' b1 b2 b3 b4 (fun h' => h ⟨h'.1, h'.2.1⟩)]

theorem computeCmn_eq {nf mf : Int} (hnf : 0 ≤ nf) (hmf : 0 ≤ mf) (n m : ℕ) (hn : (n : Int) ≤ nf) (hm : (m : Int) ≤ mf)
    (l : Int) : computeCmn nf mf (lnm nf mf l n m) = triAt l m n := by
  unfold computeCmn
  have key := forRange_inv (lo := 0) (hi := nf + 1) (by omega)
    (fun n c => forRange 0 (mf + 1) (fun m c => cmnMode nf mf n m c) c) (fun _ => (0 : ℝ))
    (fun i c => ∀ (l : Int) (n' m' : ℕ), (n' : Int) ≤ nf → (m' : Int) ≤ mf →
      c (lnm nf mf l n' m') = if (n' : Int) < i then triAt l m' n' else 0)
    (by intro l n' m' _ _; rw [if_neg (by omega)])
    (by
      intro i c h1 h2 ih l0 n' m' hn' hm'
      obtain ⟨i, rfl⟩ := Int.eq_ofNat_of_zero_le h1
      have key2 := forRange_inv (lo := 0) (hi := mf + 1) (by omega)
        (fun m c => cmnMode nf mf i m c) c
        (fun j c => ∀ (l : Int) (n' m' : ℕ), (n' : Int) ≤ nf → (m' : Int) ≤ mf →
          c (lnm nf mf l n' m') = if n' < i ∨ (n' = i ∧ (m' : Int) < j) then triAt l m' n' else 0)
        (by
          intro l n' m' a1 a2
          rw [ih l n' m' a1 a2]
          congr 1
          apply propext
          omega)
        (by
          intro j c g1 g2 ihj l n' m' a1 a2
          obtain ⟨j, rfl⟩ := Int.eq_ofNat_of_zero_le g1
          have c1 : (i : Int) ≤ nf := by omega
          have c2 : (j : Int) ≤ mf := by omega
          show cmnMode nf mf i j c _ = _
          rw [cmnMode_at i j c1 c2 c l n' m' (by omega) a1 (by omega) a2, ihj l n' m' a1 a2]
          · by_cases e : ((n' : Int) = i ∧ (m' : Int) = j)
            · obtain ⟨e1, e2⟩ := e
              have e1 : n' = i := by omega
              have e2 : m' = j := by omega
              subst e1 e2
              rw [if_pos ⟨rfl, rfl⟩, if_pos (by omega)]
            · rw [if_neg e]
              congr 1
              apply propext
              omega
          · intro e1 e2
            rw [ihj l n' m' a1 a2, if_neg (by omega)])
      show forRange 0 (mf + 1) _ c _ = _
      rw [key2 l0 n' m' hn' hm']
      congr 1
      apply propext
      push_cast
      omega)
  rw [key l n m hn hm, if_pos (by omega)]

theorem computeCmns_eq {nf mf : Int} (hnf : 0 ≤ nf) (hmf : 0 ≤ mf) (cmn old : Int → ℝ) (n m : Int) (hn0 : 0 ≤ n) (hn : n ≤ nf)
    (hm0 : 0 ≤ m) (hm : m ≤ mf) (l : Int) (hl0 : 0 ≤ l) (hl : l ≤ mf + nf) :
    computeCmns nf mf cmn old (lnm nf mf l n m) =
      if m = 0 ∧ n = 0 then cmn (lnm nf mf l n m)
      else if m = 0 ∧ n > 0 then (cmn (lnm nf mf l n m) + cmn (lnm nf mf l (n - 1) m)) / 2
      else if m > 0 ∧ n = 0 then (cmn (lnm nf mf l n m) + cmn (lnm nf mf l n (m - 1))) / 2
      else (cmn (lnm nf mf l n m) + cmn (lnm nf mf l (n - 1) m) + cmn (lnm nf mf l n (m - 1))
        + cmn (lnm nf mf l (n - 1) (m - 1))) / 2 := by
  set v : Int → Int → Int → ℝ := fun n m l =>
      if m = 0 ∧ n = 0 then cmn (lnm nf mf l n m)
      else if m = 0 ∧ n > 0 then (cmn (lnm nf mf l n m) + cmn (lnm nf mf l (n - 1) m)) / 2
      else if m > 0 ∧ n = 0 then (cmn (lnm nf mf l n m) + cmn (lnm nf mf l n (m - 1))) / 2
      else (cmn (lnm nf mf l n m) + cmn (lnm nf mf l (n - 1) m) + cmn (lnm nf mf l n (m - 1))
        + cmn (lnm nf mf l (n - 1) (m - 1))) / 2 with hv
  show _ = v n m l
  have pos : ∀ l n m : Int, l * (mf + 1) * (nf + 1) + (n * (mf + 1) + m) = lnm nf mf l n m := by
    intro l n m; unfold lnm; ring
  have e : computeCmns nf mf cmn old = forRange 0 (nf + 1) (fun n c => forRange 0 (mf + 1) (fun m c =>
      forRange 0 (1 + mf + nf) (fun l c => upd c (lnm nf mf l n m) (v n m l)) c) c) old := by
    unfold computeCmns
    simp only [pos, hv]
  rw [e]
  have key := forRange_inv (lo := 0) (hi := nf + 1) (by omega)
    (fun n c => forRange 0 (mf + 1) (fun m c =>
      forRange 0 (1 + mf + nf) (fun l c => upd c (lnm nf mf l n m) (v n m l)) c) c) old
    (fun i c => n < i → c (lnm nf mf l n m) = v n m l)
    (by omega)
    (by
      intro i c h1 h2 ih hi
      have key2 := forRange_inv (lo := 0) (hi := mf + 1) (by omega)
        (fun m c => forRange 0 (1 + mf + nf) (fun l c => upd c (lnm nf mf l i m) (v i m l)) c) c
        (fun j c => (n < i ∨ n = i ∧ m < j) → c (lnm nf mf l n m) = v n m l)
        (by intro h; exact ih (by omega))
        (by
          intro j c g1 g2 ihj hj
          have key3 := forRange_inv (lo := 0) (hi := 1 + mf + nf) (by omega)
            (fun l c => upd c (lnm nf mf l i j) (v i j l)) c
            (fun k c => (n < i ∨ n = i ∧ m < j ∨ n = i ∧ m = j ∧ l < k) → c (lnm nf mf l n m) = v n m l)
            (by intro h; exact ihj (by omega))
            (by
              intro k c f1 f2 ihk hk
              show upd c _ _ _ = _
              by_cases hq : n = i ∧ m = j ∧ l = k
              · obtain ⟨rfl, rfl, rfl⟩ := hq
                rw [upd_same]
              · rw [upd_ne]
                · exact ihk (by omega)
                · intro h
                  obtain ⟨e1, e2, e3⟩ := lnm_inj hn0 hn hm0 hm h1 (by omega) g1 (by omega) h
                  exact hq ⟨e2, e3, e1⟩)
          exact key3 (by omega))
      exact key2 (by omega))
  exact key (by omega)

end Verif.Nestor
