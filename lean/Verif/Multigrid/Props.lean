import Verif.Multigrid.Stencil

/-!
# Property C45: carrying the coarse solution to the next finer grid

Vocabulary: `pos ns j = j/(ns-1)` is the radial position `s` of surface `j`; `Holds nt R ... s G` says that
every copy of coefficient `(m, n)` of array `c` on surface `j` that a thread of the team keeps has the
value `G c j m n`; `Setup.Good` says that both teams are those the solver sets up (see C01-C04).
-/
namespace Verif.Multigrid
open Verif Verif.Coeffs Verif.Partition

variable {x : Setup} {lfreeb : Bool}

/-- the coarse data that is interpolated: the coefficients divided by `sqrt(s)` for odd `m`, with the axis
    value extrapolated from the first two surfaces -/
noncomputable def coarse (ns : Int) (G : F → Int → Int → Int → ℝ) (c : F) (j m n : Int) : ℝ :=
  if j = 0 ∧ m % 2 = 1 then 2 * (G c 1 m n * oddScale ns 1 m) - G c 2 m n * oddScale ns 2 m
  else G c j m n * oddScale ns j m

/-- the fine data -/
noncomputable def fine (scheme : Scheme) (no nn : Int) (G : F → Int → Int → Int → ℝ) (c : F) (j m n : Int) : ℝ :=
  if j = 0 ∧ m % 2 = 1 then 0
  else (∑ k ∈ Finset.Ico 0 (stencil scheme no nn j).size,
      (stencil scheme no nn j).weight k * coarse no G c ((stencil scheme no nn j).at_ k) m n) / oddScale nn j m

/-- The step never leaves an array, reads only surfaces of the old grid, and afterwards all threads of the
    new team agree on a state that is a function of the coarse state alone. -/
theorem step_spec (h : x.Good lfreeb) (dec fresh init : Store) (G : F → Int → Int → Int → ℝ)
    (hG : Holds x.nt_old x.rOld x.mpol x.ntor (x.ctxOld 0).has dec G) :
    ∃ s, nextStep x dec fresh init = .ok s ∧
      Holds x.nt_new x.rNew x.mpol x.ntor (x.ctxNew 0).has s (fine x.scheme x.ns_old x.ns_new G) := by
  obtain ⟨s1, r1, g1⟩ := extrapolate_holds h _ _ (scaled_holds h dec fresh G hG)
  obtain ⟨s2, r2, g2⟩ := interpolate_holds h s1 init _ g1
    (fun j h0 h1 => stencil_within x.scheme h.old.2.1 h.new.2.1 h0 h1)
  obtain ⟨s3, r3, g3⟩ := zeroAxis_holds h s2 _ g2
  refine ⟨s3, ?_, ?_⟩
  · unfold nextStep interpolateToNextMultigridStep
    rw [r1, Outcome.bind_ok, r2, Outcome.bind_ok, r3]
  · intro t j m n c ht hj hm hc
    exact g3 t j m n c ht hj hm hc

/-- **C45 (no stray access, one result).** For every pair of grids, every pair of teams and every
    interpolation scheme the step ends normally; the new coefficients are the same for all threads that
    keep a copy, and they do not depend on how the surfaces were or are distributed over threads. -/
theorem C45_safe_and_team_independent (x y : Setup) (lfreeb lfreeb' : Bool) (hx : x.Good lfreeb)
    (hy : y.Good lfreeb') (h1 : x.mpol = y.mpol) (h2 : x.ntor = y.ntor) (h3 : x.lasym = y.lasym)
    (h4 : x.ns_old = y.ns_old) (h5 : x.ns_new = y.ns_new) (h6 : x.scheme = y.scheme)
    (dec fresh init dec' fresh' init' : Store) (G : F → Int → Int → Int → ℝ)
    (hG : Holds x.nt_old x.rOld x.mpol x.ntor (x.ctxOld 0).has dec G)
    (hG' : Holds y.nt_old y.rOld y.mpol y.ntor (y.ctxOld 0).has dec' G) :
    ∃ s s' G', nextStep x dec fresh init = .ok s ∧ nextStep y dec' fresh' init' = .ok s' ∧
      Holds x.nt_new x.rNew x.mpol x.ntor (x.ctxNew 0).has s G' ∧
      Holds y.nt_new y.rNew y.mpol y.ntor (y.ctxNew 0).has s' G' := by
  obtain ⟨s, r, g⟩ := step_spec hx dec fresh init G hG
  obtain ⟨s', r', g'⟩ := step_spec hy dec' fresh' init' G hG'
  rw [← h4, ← h5, ← h6] at g'
  exact ⟨s, s', _, r, r', g, g'⟩

/-! ## values -/

theorem oddScale_pos_eq {ns j m : Int} (hj : 1 ≤ j) (hm : m % 2 = 1) :
    oddScale ns j m = 1 / Real.sqrt (pos ns j) := by
  unfold oddScale pos
  rw [if_neg (by omega), max_eq_left hj]

theorem oddScale_even {ns j m : Int} (hm : m % 2 = 0) : oddScale ns j m = 1 := by
  unfold oddScale; rw [if_pos hm]

/-- the stencil sum reproduces affine functions of `s` -/
theorem stencil_affine (scheme : Scheme) {no nn j : Int} (hno : 3 ≤ no) (hnn : 3 ≤ nn) (h0 : 0 ≤ j)
    (h1 : j < nn) (a b : ℝ) (g : Int → ℝ) (hg : ∀ i, 0 ≤ i → i < no → g i = a + b * pos no i) :
    (∑ k ∈ Finset.Ico 0 (stencil scheme no nn j).size,
      (stencil scheme no nn j).weight k * g ((stencil scheme no nn j).at_ k)) = a + b * pos nn j := by
  obtain ⟨⟨b0, b1⟩, e1, e2⟩ := js1_bounds hno hnn h0 h1
  have p1 := ns_pos hno
  by_cases hs : scheme = .linear ∨ no < 4
  · rw [linear_sum hs hno hnn h0 h1, hg _ b0 b1, hg _ (by omega) (by omega)]
    have hf : frac no nn j = (pos nn j - pos no (js1 no nn j)) * ((no : ℝ) - 1) := rfl
    rcases lt_or_eq_of_le (show js1 no nn j ≤ no - 1 by omega) with hlt | heq
    · rw [min_eq_left (by omega)]
      have hd : pos no (js1 no nn j + 1) = pos no (js1 no nn j) + 1 / ((no : ℝ) - 1) := by
        unfold pos; push_cast; rw [add_div]
      rw [hd, hf]
      field_simp
      ring
    · -- the outermost surface
      have hj : j = nn - 1 := by
        rw [heq] at e1
        have : (no - 1) * (nn - 1) ≤ (no - 1) * j := by linarith [mul_comm j (no - 1)]
        have := le_of_mul_le_mul_left this (by omega : 0 < no - 1)
        omega
      have hz : frac no nn j = 0 := by
        rw [hf, heq, hj]
        unfold pos
        push_cast
        rw [div_self (ns_pos hnn).ne', div_self p1.ne']; ring
      rw [hz, heq, hj]
      unfold pos
      push_cast
      rw [div_self (ns_pos hnn).ne', div_self p1.ne']; ring
  · have h4 : 4 ≤ no := by
      by_contra hlt; exact hs (Or.inr (by omega))
    obtain ⟨c0, c1, _⟩ := base_bounds h4 b0 b1
    rw [cubic_sum hs]
    have ne := fun (i k : Int) (hi : 0 ≤ i) (hik : i < k) => node_ne scheme hno c0 hi hik
    by_cases hr : scheme = .cubicRho
    · have key := lagrange_cubic (fun k => var scheme (pos no (base no (js1 no nn j) + k)))
        (var scheme (pos nn j)) a 0 b 0 (ne 0 1 (by norm_num) (by norm_num)) (ne 0 2 (by norm_num) (by norm_num))
        (ne 0 3 (by norm_num) (by norm_num)) (ne 1 2 (by norm_num) (by norm_num))
        (ne 1 3 (by norm_num) (by norm_num)) (ne 2 3 (by norm_num) (by norm_num))
      have hv : ∀ s : ℝ, 0 ≤ s → var scheme s ^ 2 = s := fun s hs => by
        unfold var; rw [if_pos hr, Real.sq_sqrt hs]
      rw [hv _ (pos_nonneg hnn h0)] at key
      refine Eq.trans (Finset.sum_congr rfl (fun k hk => ?_)) (key.trans (by ring))
      rw [Finset.mem_Ico] at hk
      rw [hg _ (by omega) (by omega)]
      beta_reduce
      rw [hv _ (pos_nonneg hno (by omega))]
      ring
    · have key := lagrange_cubic (fun k => var scheme (pos no (base no (js1 no nn j) + k)))
        (var scheme (pos nn j)) a b 0 0 (ne 0 1 (by norm_num) (by norm_num)) (ne 0 2 (by norm_num) (by norm_num))
        (ne 0 3 (by norm_num) (by norm_num)) (ne 1 2 (by norm_num) (by norm_num))
        (ne 1 3 (by norm_num) (by norm_num)) (ne 2 3 (by norm_num) (by norm_num))
      have hv : ∀ s : ℝ, var scheme s = s := fun s => by unfold var; rw [if_neg hr]
      refine Eq.trans (Finset.sum_congr rfl (fun k hk => ?_)) (key.trans (by rw [hv]; ring))
      rw [Finset.mem_Ico] at hk
      rw [hg _ (by omega) (by omega)]
      congr 1
      rw [hv]
      ring

/-- the stencil sum picks an old value whose position coincides with the new one -/
theorem stencil_exact (scheme : Scheme) {no nn j i : Int} (hno : 3 ≤ no) (hnn : 3 ≤ nn) (h0 : 0 ≤ j)
    (h1 : j < nn) (hi : 0 ≤ i) (hi' : i < no) (he : pos nn j = pos no i) (g : Int → ℝ) :
    (∑ k ∈ Finset.Ico 0 (stencil scheme no nn j).size,
      (stencil scheme no nn j).weight k * g ((stencil scheme no nn j).at_ k)) = g i := by
  obtain ⟨⟨b0, b1⟩, e1, e2⟩ := js1_bounds hno hnn h0 h1
  have p1 := ns_pos hno
  have p2 := ns_pos hnn
  have hj : j * (no - 1) = i * (nn - 1) := by
    unfold pos at he
    rw [div_eq_div_iff p2.ne' p1.ne'] at he
    exact_mod_cast he
  have hjs : js1 no nn j = i := by
    unfold js1
    rw [hj]
    exact Int.mul_tdiv_cancel _ (by omega)
  by_cases hs : scheme = .linear ∨ no < 4
  · rw [linear_sum hs hno hnn h0 h1, hjs]
    have : frac no nn j = 0 := by unfold frac; rw [hjs, he]; ring
    rw [this]; ring
  · have h4 : 4 ≤ no := by
      by_contra hlt; exact hs (Or.inr (by omega))
    obtain ⟨c0, c1, c2, c3, _⟩ := base_bounds h4 b0 b1
    rw [cubic_sum hs]
    have ne := fun (i k : Int) (hi : 0 ≤ i) (hik : i < k) => node_ne scheme hno c0 hi hik
    have key := lagrange_node (fun k => var scheme (pos no (base no (js1 no nn j) + k)))
      (fun k => g (base no (js1 no nn j) + k)) (i - base no (js1 no nn j)) (by omega)
      (ne 0 1 (by norm_num) (by norm_num)) (ne 0 2 (by norm_num) (by norm_num))
      (ne 0 3 (by norm_num) (by norm_num)) (ne 1 2 (by norm_num) (by norm_num))
      (ne 1 3 (by norm_num) (by norm_num)) (ne 2 3 (by norm_num) (by norm_num))
    have e : base no (js1 no nn j) + (i - base no (js1 no nn j)) = i := by ring
    beta_reduce at key
    rw [e, ← he] at key
    exact key

/-- **C45 (linear data).** If the even-m coefficients are linear in `s` and the odd-m coefficients are
    `sqrt(s)` times a linear function of `s` (away from the axis), then so are the new ones, with the same
    linear function, on every surface including axis and boundary; for every scheme. -/
theorem C45_linear_data (x : Setup) (lfreeb : Bool) (h : x.Good lfreeb) (dec fresh init : Store)
    (G : F → Int → Int → Int → ℝ) (a b : F → Int → Int → ℝ)
    (hG : Holds x.nt_old x.rOld x.mpol x.ntor (x.ctxOld 0).has dec G)
    (heven : ∀ c j m n, 0 ≤ j → j < x.ns_old → m % 2 = 0 → G c j m n = a c m n + b c m n * pos x.ns_old j)
    (hodd : ∀ c j m n, 1 ≤ j → j < x.ns_old → m % 2 = 1 →
      G c j m n = Real.sqrt (pos x.ns_old j) * (a c m n + b c m n * pos x.ns_old j)) :
    ∃ s, nextStep x dec fresh init = .ok s ∧
      Holds x.nt_new x.rNew x.mpol x.ntor (x.ctxNew 0).has s (fun c j m n =>
        if m % 2 = 0 then a c m n + b c m n * pos x.ns_new j
        else Real.sqrt (pos x.ns_new j) * (a c m n + b c m n * pos x.ns_new j)) := by
  obtain ⟨s, r, g⟩ := step_spec h dec fresh init G hG
  refine ⟨s, r, ?_⟩
  intro t j m n c ht hj hm hc
  rw [g t j m n c ht hj hm hc]
  obtain ⟨j0, j1⟩ := holds_range h.new ht hj
  have hno := h.old.2.1
  have hnn := h.new.2.1
  have hcoarse : ∀ i, 0 ≤ i → i < x.ns_old →
      coarse x.ns_old G c i m n = a c m n + b c m n * pos x.ns_old i := by
    intro i i0 i1
    unfold coarse
    rcases Int.emod_two_eq_zero_or_one m with he | ho
    · rw [if_neg (by omega), oddScale_even he, heven c i m n i0 i1 he, mul_one]
    · have hc1 : ∀ i, 1 ≤ i → i < x.ns_old → G c i m n * oddScale x.ns_old i m
          = a c m n + b c m n * pos x.ns_old i := by
        intro i k0 k1
        have hp : 0 < pos x.ns_old i := by
          have := pos_lt hno (show (0 : Int) < i by omega)
          have z : pos x.ns_old 0 = 0 := by simp [pos]
          linarith
        rw [oddScale_pos_eq k0 ho, hodd c i m n k0 k1 ho]
        have := (Real.sqrt_pos.2 hp).ne'
        field_simp
      by_cases hz : i = 0
      · rw [if_pos ⟨hz, ho⟩, hc1 1 (by omega) (by omega), hc1 2 (by omega) (by omega), hz]
        unfold pos; push_cast; ring
      · rw [if_neg (by omega), hc1 i (by omega) i1]
  have hsum := stencil_affine x.scheme hno hnn j0 j1 (a c m n) (b c m n) (fun i => coarse x.ns_old G c i m n)
    hcoarse
  beta_reduce at hsum ⊢
  unfold fine
  rw [hsum]
  rcases Int.emod_two_eq_zero_or_one m with he | ho
  · rw [if_neg (by omega), if_pos he, oddScale_even he, div_one]
  · by_cases hz : j = 0
    · rw [if_pos ⟨hz, ho⟩, if_neg (by omega), hz]
      simp [pos]
    · rw [if_neg (by omega), if_neg (by omega), oddScale_pos_eq (by omega) ho, div_div_eq_mul_div, div_one, mul_comm]

/-- **C45 (surfaces kept).** A new surface at the position of an old surface gets exactly the coefficients of
    that old surface (for odd `m` away from the axis); for every scheme. -/
theorem C45_kept_surfaces (x : Setup) (lfreeb : Bool) (h : x.Good lfreeb) (dec fresh init : Store)
    (G : F → Int → Int → Int → ℝ)
    (hG : Holds x.nt_old x.rOld x.mpol x.ntor (x.ctxOld 0).has dec G) :
    ∃ s G', nextStep x dec fresh init = .ok s ∧
      Holds x.nt_new x.rNew x.mpol x.ntor (x.ctxNew 0).has s G' ∧
      (∀ c i j m n, 0 ≤ i → i < x.ns_old → 0 ≤ j → j < x.ns_new →
        j * (x.ns_old - 1) = i * (x.ns_new - 1) → m % 2 = 0 ∨ i ≠ 0 → G' c j m n = G c i m n) ∧
      (∀ c m n, m % 2 = 1 → G' c 0 m n = 0) := by
  obtain ⟨s, r, g⟩ := step_spec h dec fresh init G hG
  refine ⟨s, _, r, g, ?_, ?_⟩
  · intro c i j m n i0 i1 j0 j1 hij hax
    have hno := h.old.2.1
    have hnn := h.new.2.1
    have hp : pos x.ns_new j = pos x.ns_old i := by
      unfold pos
      rw [div_eq_div_iff (ns_pos hnn).ne' (ns_pos hno).ne']
      exact_mod_cast hij
    have hz : j = 0 ↔ i = 0 := by
      constructor
      · rintro rfl
        have : i * (x.ns_new - 1) = 0 := by linarith
        rcases mul_eq_zero.1 this with h | h <;> omega
      · rintro rfl
        have : j * (x.ns_old - 1) = 0 := by linarith
        rcases mul_eq_zero.1 this with h | h <;> omega
    have hsum := stencil_exact x.scheme hno hnn j0 j1 i0 i1 hp (fun i => coarse x.ns_old G c i m n)
    beta_reduce at hsum
    unfold fine
    rw [hsum]
    unfold coarse
    rcases Int.emod_two_eq_zero_or_one m with he | ho
    · rw [if_neg (by omega), if_neg (by omega), oddScale_even he, oddScale_even he, div_one, mul_one]
    · have hi : i ≠ 0 := hax.resolve_left (by omega)
      have hj : j ≠ 0 := fun e => hi (hz.1 e)
      rw [if_neg (by omega), if_neg (by omega), oddScale_pos_eq (by omega) ho, oddScale_pos_eq (by omega) ho, hp]
      have : 0 < pos x.ns_old i := by
        have := pos_lt hno (show (0 : Int) < i by omega)
        have z : pos x.ns_old 0 = 0 := by simp [pos]
        linarith
      have := (Real.sqrt_pos.2 this).ne'
      field_simp
  · intro c m n ho
    unfold fine
    rw [if_pos ⟨rfl, ho⟩]

/-- **C45 (boundary).** The outermost surface is carried over exactly. -/
theorem C45_boundary (x : Setup) (lfreeb : Bool) (h : x.Good lfreeb) (dec fresh init : Store)
    (G : F → Int → Int → Int → ℝ)
    (hG : Holds x.nt_old x.rOld x.mpol x.ntor (x.ctxOld 0).has dec G) :
    ∃ s G', nextStep x dec fresh init = .ok s ∧
      Holds x.nt_new x.rNew x.mpol x.ntor (x.ctxNew 0).has s G' ∧
      ∀ c m n, G' c (x.ns_new - 1) m n = G c (x.ns_old - 1) m n := by
  obtain ⟨s, G', r, g, k, _⟩ := C45_kept_surfaces x lfreeb h dec fresh init G hG
  have hno := h.old.2.1
  have hnn := h.new.2.1
  exact ⟨s, G', r, g, fun c m n => k c (x.ns_old - 1) (x.ns_new - 1) m n (by omega) (by omega) (by omega)
    (by omega) (by ring) (Or.inr (by omega))⟩

/-- **C45 (range), linear scheme.** A new even-m coefficient lies between the coefficients of the two old
    surfaces whose positions enclose the new position. For odd `m`, away from the innermost old interval,
    the same holds for the coefficients divided by `sqrt(s)`.

    Missing from the full statement: the cubic schemes, which overshoot (`C45_cubic_overshoots`). -/
theorem C45_range_partial (x : Setup) (lfreeb : Bool) (h : x.Good lfreeb)
    (hs : x.scheme = .linear ∨ x.ns_old < 4) (dec fresh init : Store)
    (G : F → Int → Int → Int → ℝ)
    (hG : Holds x.nt_old x.rOld x.mpol x.ntor (x.ctxOld 0).has dec G) :
    ∃ s G', nextStep x dec fresh init = .ok s ∧
      Holds x.nt_new x.rNew x.mpol x.ntor (x.ctxNew 0).has s G' ∧
      ∀ j, 0 ≤ j → j < x.ns_new → ∃ i i', (0 ≤ i ∧ i ≤ i' ∧ i' < x.ns_old ∧ i' ≤ i + 1) ∧
        (pos x.ns_old i ≤ pos x.ns_new j ∧ pos x.ns_new j ≤ pos x.ns_old i') ∧
        (∀ c m n, m % 2 = 0 → G' c j m n ∈ Set.uIcc (G c i m n) (G c i' m n)) ∧
        (∀ c m n, m % 2 = 1 → 0 < i → G' c j m n / Real.sqrt (pos x.ns_new j) ∈
          Set.uIcc (G c i m n / Real.sqrt (pos x.ns_old i)) (G c i' m n / Real.sqrt (pos x.ns_old i'))) := by
  obtain ⟨s, r, g⟩ := step_spec h dec fresh init G hG
  refine ⟨s, _, r, g, ?_⟩
  intro j j0 j1
  have hno := h.old.2.1
  have hnn := h.new.2.1
  obtain ⟨⟨b0, b1⟩, e1, e2⟩ := js1_bounds hno hnn j0 j1
  obtain ⟨q1, q2⟩ := bracket hno hnn j0 j1
  obtain ⟨f0, f1⟩ := frac_bounds hno hnn j0 j1
  have conv : ∀ u v : ℝ, (1 - frac x.ns_old x.ns_new j) * u + frac x.ns_old x.ns_new j * v ∈ Set.uIcc u v := by
    intro u v
    rw [Set.mem_uIcc]
    rcases le_total u v with huv | huv
    · left; constructor <;> nlinarith
    · right; constructor <;> nlinarith
  refine ⟨js1 x.ns_old x.ns_new j, min (js1 x.ns_old x.ns_new j + 1) (x.ns_old - 1), by omega, ⟨q1, ?_⟩, ?_, ?_⟩
  · rcases lt_or_eq_of_le (show js1 x.ns_old x.ns_new j ≤ x.ns_old - 1 by omega) with hlt | heq
    · rw [min_eq_left (by omega)]; exact q2.le
    · rw [min_eq_right (by omega)]
      have : pos x.ns_old (x.ns_old - 1) = 1 := by
        unfold pos; push_cast; exact div_self (ns_pos hno).ne'
      rw [this]
      unfold pos
      rw [div_le_one (ns_pos hnn)]
      have : (j : ℝ) ≤ ((x.ns_new - 1 : Int) : ℝ) := by exact_mod_cast (show j ≤ x.ns_new - 1 by omega)
      push_cast at this; exact this
  · intro c m n he
    unfold fine
    rw [if_neg (by omega), linear_sum hs hno hnn j0 j1 (fun i => coarse x.ns_old G c i m n), oddScale_even he,
      div_one]
    have hco : ∀ i, coarse x.ns_old G c i m n = G c i m n := fun i => by
      unfold coarse; rw [if_neg (by omega), oddScale_even he, mul_one]
    beta_reduce
    rw [hco, hco]
    exact conv _ _
  · intro c m n ho hi
    have hj : j ≠ 0 := by
      rintro rfl
      have : js1 x.ns_old x.ns_new 0 = 0 := by unfold js1; rw [zero_mul, Int.zero_tdiv]
      omega
    have hp : 0 < pos x.ns_new j := by
      have := pos_lt hnn (show (0 : Int) < j by omega)
      have z : pos x.ns_new 0 = 0 := by simp [pos]
      linarith
    unfold fine
    rw [if_neg (by omega), linear_sum hs hno hnn j0 j1 (fun i => coarse x.ns_old G c i m n),
      oddScale_pos_eq (by omega) ho]
    have hco : ∀ i, 0 < i → coarse x.ns_old G c i m n = G c i m n / Real.sqrt (pos x.ns_old i) := fun i hi => by
      unfold coarse; rw [if_neg (by omega), oddScale_pos_eq (by omega) ho, mul_one_div]
    beta_reduce
    rw [hco _ hi, hco _ (by omega), div_div_eq_mul_div, div_one,
      mul_div_assoc, div_self (Real.sqrt_pos.2 hp).ne', mul_one]
    exact conv _ _

/-- **C45 (range) fails for the cubic scheme**: four old values between 0 and 1, and a new value below 0. -/
theorem C45_cubic_overshoots :
    ∃ g : Int → ℝ, (∀ i, 0 ≤ g i ∧ g i ≤ 1) ∧
      (∑ k ∈ Finset.Ico 0 (stencil .cubicS 4 7 1).size,
        (stencil .cubicS 4 7 1).weight k * g ((stencil .cubicS 4 7 1).at_ k)) < 0 := by
  refine ⟨fun i => if i = 2 then 1 else 0, fun i => by beta_reduce; split <;> norm_num, ?_⟩
  have hs : ¬ ((Scheme.cubicS = .linear) ∨ (4 : Int) < 4) := by decide
  rw [cubic_sum (nn := 7) (j := 1) hs (fun i => if i = 2 then 1 else 0), sum_four]
  have hb : base 4 (js1 4 7 1) = 0 := by decide
  obtain ⟨l0, l1, l2, l3⟩ := lagrange_eq
    (fun k => var .cubicS (pos 4 (base 4 (js1 4 7 1) + k))) (var .cubicS (pos 7 1))
  rw [l0, l1, l2, l3, hb]
  have hv : ∀ s, var .cubicS s = s := fun s => by unfold var; rw [if_neg (by decide)]
  simp only [hv, pos]
  norm_num

/-- **C45 (cubic data).** With four or more old surfaces the cubic schemes reproduce even-m coefficients that
    are cubic polynomials of the interpolation variable (`s`, respectively `sqrt(s)`). -/
theorem C45_cubic_data (x : Setup) (lfreeb : Bool) (h : x.Good lfreeb)
    (hs : x.scheme ≠ .linear) (h4 : 4 ≤ x.ns_old) (dec fresh init : Store)
    (G : F → Int → Int → Int → ℝ) (p : F → Int → Int → Nat → ℝ)
    (hG : Holds x.nt_old x.rOld x.mpol x.ntor (x.ctxOld 0).has dec G) (v : ℝ → ℝ)
    (hv : v = if x.scheme = .cubicRho then Real.sqrt else id)
    (heven : ∀ c j m n, 0 ≤ j → j < x.ns_old → m % 2 = 0 → G c j m n =
      p c m n 0 + p c m n 1 * v (pos x.ns_old j) + p c m n 2 * v (pos x.ns_old j) ^ 2
        + p c m n 3 * v (pos x.ns_old j) ^ 3) :
    ∃ s G', nextStep x dec fresh init = .ok s ∧
      Holds x.nt_new x.rNew x.mpol x.ntor (x.ctxNew 0).has s G' ∧
      ∀ c j m n, 0 ≤ j → j < x.ns_new → m % 2 = 0 → G' c j m n =
        p c m n 0 + p c m n 1 * v (pos x.ns_new j) + p c m n 2 * v (pos x.ns_new j) ^ 2
          + p c m n 3 * v (pos x.ns_new j) ^ 3 := by
  obtain ⟨s, r, g⟩ := step_spec h dec fresh init G hG
  refine ⟨s, _, r, g, ?_⟩
  intro c j m n j0 j1 he
  have hno := h.old.2.1
  have hnn := h.new.2.1
  have hvar : ∀ s, var x.scheme s = v s := by
    intro s; rw [hv]; unfold var; split <;> rfl
  have hs' : ¬ (x.scheme = .linear ∨ x.ns_old < 4) := by rintro (h | h); exacts [hs h, by omega]
  obtain ⟨⟨b0, b1⟩, _, _⟩ := js1_bounds hno hnn j0 j1
  obtain ⟨c0, c1, _⟩ := base_bounds h4 b0 b1
  have ne := fun (i k : Int) (hi : 0 ≤ i) (hik : i < k) => node_ne x.scheme hno c0 hi hik
  have key := lagrange_cubic (fun k => var x.scheme (pos x.ns_old (base x.ns_old (js1 x.ns_old x.ns_new j) + k)))
    (var x.scheme (pos x.ns_new j)) (p c m n 0) (p c m n 1) (p c m n 2) (p c m n 3)
    (ne 0 1 (by norm_num) (by norm_num)) (ne 0 2 (by norm_num) (by norm_num))
    (ne 0 3 (by norm_num) (by norm_num)) (ne 1 2 (by norm_num) (by norm_num))
    (ne 1 3 (by norm_num) (by norm_num)) (ne 2 3 (by norm_num) (by norm_num))
  unfold fine
  rw [if_neg (by omega), cubic_sum hs' (fun i => coarse x.ns_old G c i m n), oddScale_even he, div_one, ← hvar]
  refine Eq.trans (Finset.sum_congr rfl (fun k hk => ?_)) key
  rw [Finset.mem_Ico] at hk
  congr 1
  unfold coarse
  rw [if_neg (by omega), oddScale_even he, mul_one, heven c _ m n (by omega) (by omega) he, hvar]

/-! ## concrete setups -/

/-- a coarse grid of 5 surfaces on two threads, a fine grid of 11 surfaces on five threads -/
def demo : Setup where
  mpol := 3
  ntor := 1
  lasym := false
  ns_old := 5
  ns_new := 11
  nt_old := 2
  nt_new := 5
  rOld := fun t => match adjustRadialPartitioning 2 t 5 false with | .ok r => r | _ => ⟨0,0,0,0,0,0,0,0,0⟩
  rNew := fun t => match adjustRadialPartitioning 5 t 11 false with | .ok r => r | _ => ⟨0,0,0,0,0,0,0,0,0⟩
  scheme := .cubicRho

theorem demo_good : demo.Good false := by
  refine ⟨by decide, by decide, by decide, ⟨by decide, by decide, by decide, ?_⟩, ⟨by decide, by decide, by decide, ?_⟩⟩
  · intro t ht
    have ht' : 0 ≤ t ∧ t < 2 := ht
    have : t = 0 ∨ t = 1 := by omega
    rcases this with rfl | rfl <;> decide
  · intro t ht
    have ht' : 0 ≤ t ∧ t < 5 := ht
    have : t = 0 ∨ t = 1 ∨ t = 2 ∨ t = 3 ∨ t = 4 := by omega
    rcases this with rfl | rfl | rfl | rfl | rfl <;> decide

/-- a coarse state with any given coefficients exists -/
theorem exists_state (x : Setup) (G : F → Int → Int → Int → ℝ) :
    ∃ s, Holds x.nt_old x.rOld x.mpol x.ntor (x.ctxOld 0).has s G := by
  classical
  refine ⟨fun k => if h : ∃ q : Int × Int × Int, ((0 ≤ q.2.1 ∧ q.2.1 < x.mpol) ∧ 0 ≤ q.2.2 ∧ q.2.2 ≤ x.ntor) ∧
      k.2.2 = fcIdx (x.rOld k.1).nsMinF1 x.mpol x.ntor q.1 q.2.1 q.2.2
    then G k.2.1 h.choose.1 h.choose.2.1 h.choose.2.2 else 0, ?_⟩
  intro t j m n c ht hj hm hc
  have hex : ∃ q : Int × Int × Int, ((0 ≤ q.2.1 ∧ q.2.1 < x.mpol) ∧ 0 ≤ q.2.2 ∧ q.2.2 ≤ x.ntor) ∧
      fcIdx (x.rOld t).nsMinF1 x.mpol x.ntor j m n = fcIdx (x.rOld t).nsMinF1 x.mpol x.ntor q.1 q.2.1 q.2.2 :=
    ⟨(j, m, n), hm, rfl⟩
  have hs := hex.choose_spec
  obtain ⟨e1, e2, e3⟩ := fcIdx_inj hm.1.1 hm.1.2 hm.2.1 hm.2.2 hs.1.1.1 hs.1.1.2 hs.1.2.1 hs.1.2.2 hs.2
  refine (dif_pos hex).trans ?_
  show G c hex.choose.1 hex.choose.2.1 hex.choose.2.2 = _
  rw [← e1, ← e2, ← e3]

example : ∃ dec s G', nextStep demo dec (fun _ => 0) (fun _ => 7) = .ok s ∧
    Holds demo.nt_new demo.rNew demo.mpol demo.ntor (demo.ctxNew 0).has s G' ∧
    ∀ c m n, G' c 10 m n = (4 : ℝ) + m + n := by
  obtain ⟨dec, hd⟩ := exists_state demo (fun _ j m n => (j : ℝ) + m + n)
  obtain ⟨s, G', h1, h2, h3⟩ := C45_boundary demo false demo_good dec (fun _ => 0) (fun _ => 7) _ hd
  exact ⟨dec, s, G', h1, h2, fun c m n => by have := h3 c m n; simpa [demo] using this⟩

end Verif.Multigrid
