import Verif.Fourier.Lemmas
import Verif.Sizes.Props

/-!
# Properties C09, C10, C11
-/
namespace Verif.Fourier
open Verif Finset

/-! ## C09 mode tables -/

theorem mnIdx_eq {N m n : Int} (h : m = 0 → 0 ≤ n) : mnIdx N m n = .ok (idx N m n) := by
  unfold mnIdx idx
  by_cases hm : m = 0
  · simp [hm, h hm]
  · simp [hm]

/-- **C09**: the mode-number table is filled completely (no counting abort); the position of mode
    `(m,n)` is given by the index function, positions are in range, and every mode appears at exactly
    one position. -/
theorem C09_mode_table (M N nfp : Int) (hM : 1 ≤ M) (hN : 0 ≤ N) :
    ∃ xm xn, computeConversionIndices N M nfp = .ok (xm, xn) ∧
      (∀ m n, validMode M N m n → ∃ i, mnIdx N m n = .ok i ∧ 0 ≤ i ∧ i < mnMax M N ∧
        xm i = m ∧ xn i = n * nfp) ∧
      (∀ i, 0 ≤ i → i < mnMax M N → ∃! p : Int × Int, validMode M N p.1 p.2 ∧ mnIdx N p.1 p.2 = .ok i) ∧
      (nfp ≠ 0 → ∀ m n, validMode M N m n →
        ∃! i, 0 ≤ i ∧ i < mnMax M N ∧ xm i = m ∧ xn i = n * nfp) := by
  -- split the triple state into two assignment loops
  obtain ⟨a1, a2, a3⟩ := assign_first (β := Int) N 0 (by omega) (fun _ => 0) (0, fun _ => 0) rfl
  obtain ⟨b1, b2, b3⟩ := assign_rows (β := Int) M N hM hN (fun m _ => m) _ a1
  obtain ⟨c1, c2, c3⟩ := assign_first (β := Int) N 0 (by omega) (fun n => n * nfp) (0, fun _ => 0) rfl
  obtain ⟨d1, d2, d3⟩ := assign_rows (β := Int) M N hM hN (fun _ n => n * nfp) _ c1
  have e1 := forRange_map (lo := 0) (hi := N + 1) (fun n (s : Int × (Int → Int) × (Int → Int)) =>
    (s.1 + 1, upd s.2.1 s.1 0, upd s.2.2 s.1 (n * nfp)))
    (fun n s => (s.1 + 1, upd s.2 s.1 ((fun _ => 0) n))) (fun s => (s.1, s.2.1))
    (fun _ _ => rfl) (0, (fun _ => 0), (fun _ => 0))
  have e2 := forRange_map (lo := 0) (hi := N + 1) (fun n (s : Int × (Int → Int) × (Int → Int)) =>
    (s.1 + 1, upd s.2.1 s.1 0, upd s.2.2 s.1 (n * nfp)))
    (fun n s => (s.1 + 1, upd s.2 s.1 ((fun n => n * nfp) n))) (fun s => (s.1, s.2.2))
    (fun _ _ => rfl) (0, (fun _ => 0), (fun _ => 0))
  have f1 : ∀ s, _ := forRange_map (lo := 1) (hi := M) (fun m s =>
    forRange (-N) (N + 1) (fun n (s : Int × (Int → Int) × (Int → Int)) =>
      (s.1 + 1, upd s.2.1 s.1 m, upd s.2.2 s.1 (n * nfp))) s)
    (fun m s => forRange (-N) (N + 1) (fun n (s : Int × (Int → Int)) =>
      (s.1 + 1, upd s.2 s.1 ((fun m _ => m) m n))) s) (fun s => (s.1, s.2.1))
    (fun m s => forRange_map _ _ (fun s => (s.1, s.2.1)) (fun _ _ => rfl) s)
  have f2 : ∀ s, _ := forRange_map (lo := 1) (hi := M) (fun m s =>
    forRange (-N) (N + 1) (fun n (s : Int × (Int → Int) × (Int → Int)) =>
      (s.1 + 1, upd s.2.1 s.1 m, upd s.2.2 s.1 (n * nfp))) s)
    (fun m s => forRange (-N) (N + 1) (fun n (s : Int × (Int → Int)) =>
      (s.1 + 1, upd s.2 s.1 ((fun _ n => n * nfp) m n))) s) (fun s => (s.1, s.2.2))
    (fun m s => forRange_map _ _ (fun s => (s.1, s.2.2)) (fun _ _ => rfl) s)
  unfold computeConversionIndices
  dsimp only
  generalize hs1 : forRange 0 (N + 1) (fun n (s : Int × (Int → Int) × (Int → Int)) =>
    (s.1 + 1, upd s.2.1 s.1 0, upd s.2.2 s.1 (n * nfp))) (0, (fun _ => 0), (fun _ => 0)) = s1 at *
  generalize hs2 : forRange 1 M (fun m s =>
    forRange (-N) (N + 1) (fun n (s : Int × (Int → Int) × (Int → Int)) =>
      (s.1 + 1, upd s.2.1 s.1 m, upd s.2.2 s.1 (n * nfp))) s) s1 = s2 at *
  have g1 := f1 s1
  have g2 := f2 s1
  rw [hs2] at g1 g2
  rw [e1] at g1
  rw [e2] at g2
  have h1 : s2.1 = mnMax M N := by
    have := congrArg Prod.fst g1
    exact this.trans b1
  rw [if_pos h1]
  have hx : ∀ m n, validMode M N m n → s2.2.1 (idx N m n) = m ∧ s2.2.2 (idx N m n) = n * nfp := by
    intro m n hv
    obtain ⟨v1, v2, v3, v4⟩ := hv
    have x1 : s2.2.1 (idx N m n) = _ := congrFun (congrArg Prod.snd g1) _
    have x2 : s2.2.2 (idx N m n) = _ := congrFun (congrArg Prod.snd g2) _
    by_cases hm : m = 0
    · subst hm
      simp only [if_true] at v4
      rw [idx_zero] at *
      exact ⟨x1.trans ((b2 n (by omega)).trans (a3 n v4 v3)),
        x2.trans ((d2 n (by omega)).trans (c3 n v4 v3))⟩
    · simp only [hm, if_false] at v4
      exact ⟨x1.trans (b3 m n (by omega) v2 v4 v3), x2.trans (d3 m n (by omega) v2 v4 v3)⟩
  have hnn : ∀ m n, validMode M N m n → (m = 0 → 0 ≤ n) := by
    rintro m n ⟨_, _, _, v4⟩ rfl; simpa using v4
  refine ⟨s2.2.1, s2.2.2, rfl, ?_, ?_, ?_⟩
  · intro m n hv
    obtain ⟨r1, r2⟩ := idx_range hN hv
    exact ⟨idx N m n, mnIdx_eq (hnn m n hv), r1, r2, hx m n hv⟩
  · intro i h0 h1
    obtain ⟨m, n, hv, e⟩ := idx_surj hN h0 h1 hM
    refine ⟨(m, n), ⟨hv, by rw [← e]; exact mnIdx_eq (hnn m n hv)⟩, ?_⟩
    rintro ⟨m', n'⟩ ⟨hv', e'⟩
    rw [mnIdx_eq (hnn m' n' hv'), Outcome.ok.injEq] at e'
    have hij := idx_inj hN hv' hv (by rw [e', e])
    exact Prod.ext hij.1 hij.2
  · intro hnfp m n hv
    obtain ⟨r1, r2⟩ := idx_range hN hv
    refine ⟨idx N m n, ⟨r1, r2, hx m n hv⟩, ?_⟩
    rintro i ⟨h0, h1, h2, h3⟩
    obtain ⟨m', n', hv', e⟩ := idx_surj hN h0 h1 hM
    rw [← e, (hx m' n' hv').1] at h2
    rw [← e, (hx m' n' hv').2] at h3
    have : n' = n := Int.eq_of_mul_eq_mul_right hnfp h3
    rw [← e, h2, this]

/-- **C09** (sizes): the arrays allocated for the state and Nyquist tables have exactly the number
    of entries the tables need. -/
theorem C09_table_sizes (lasym : Bool) (nfp mpol ntor ntheta nzeta mg ng : Int) (s : Sizes.Sizes)
    (hs : Sizes.mk lasym nfp mpol ntor ntheta nzeta mg ng = .ok s) :
    s.mnmax = mnMax s.mpol s.ntor ∧ s.mnmax_nyq = mnMax (s.mnyq + 1) s.nnyq := by
  obtain ⟨⟨a1, a2, a3, a4⟩, _, _, _, _, _, _, ⟨h1, _, _⟩⟩ :=
    (Sizes.C07_sizes lasym nfp mpol ntor ntheta nzeta mg ng).2 s hs
  refine ⟨?_, ?_⟩
  · unfold Sizes.mk at hs
    split at hs
    · cases hs
    split at hs
    · cases hs
    split at hs
    · cases hs
    simp only [Outcome.ok.injEq] at hs
    rw [← hs]; rfl
  · rw [h1]; unfold mnMax; ring

theorem table_length (M N nfp : Int) (hM : 1 ≤ M) (hN : 0 ≤ N) :
    ((stateModeTable M N nfp).length : Int) = mnMax M N ∧
    ∀ m n, validMode M N m n → (stateModeTable M N nfp)[(idx N m n).toNat]? = some (m, n * nfp) := by
  have key : ∀ k : Nat, ((stateModeTable (1 + k) N nfp).length : Int) = mnMax (1 + k) N ∧
      ∀ m n, validMode (1 + k) N m n →
        (stateModeTable (1 + k) N nfp)[(idx N m n).toNat]? = some (m, n * nfp) := by
    have getrow : ∀ lo n : Int, lo ≤ n → n ≤ N → ∀ m : Int,
        ((irange lo (N + 1)).map fun n => (m, n * nfp))[(n - lo).toNat]? = some (m, n * nfp) := by
      intro lo n h1 h2 m
      rw [List.getElem?_map]
      have : (irange lo (N + 1))[(n - lo).toNat]? = some n := by
        unfold irange
        rw [List.getElem?_map, List.getElem?_range (by omega)]
        simp; omega
      rw [this]; rfl
    intro k
    induction k with
    | zero =>
      have e : stateModeTable (1 + (0 : Nat)) N nfp = (irange 0 (N + 1)).map fun n => ((0 : Int), n * nfp) := by
        unfold stateModeTable
        have : irange 0 (1 + ((0 : Nat) : Int)) = [0] := by decide
        rw [this]; simp
      rw [e]
      refine ⟨?_, ?_⟩
      · rw [List.length_map, irange_length]; simp [mnMax]; omega
      · rintro m n ⟨h1, h2, h3, h4⟩
        have hm : m = 0 := by simp at h2; omega
        subst hm
        simp only [if_true] at h4
        rw [idx_zero]
        have := getrow 0 n h4 h3 0
        simpa using this
    | succ k ih =>
      obtain ⟨ih1, ih2⟩ := ih
      have e : stateModeTable (1 + ((k + 1 : Nat) : Int)) N nfp = stateModeTable (1 + k) N nfp ++
          (irange (-N) (N + 1)).map fun n => ((1 + k : Int), n * nfp) := by
        unfold stateModeTable
        push_cast
        rw [← add_assoc, irange_succ (by omega), List.flatMap_append]
        have h : (1 + (k : Int)) ≠ 0 := by omega
        simp [h]
      rw [e]
      refine ⟨?_, ?_⟩
      · rw [List.length_append]; push_cast
        rw [ih1, List.length_map, irange_length]
        unfold mnMax
        have : (((N + 1 - -N).toNat : Nat) : Int) = 2 * N + 1 := by omega
        rw [this]; ring
      · rintro m n ⟨h1, h2, h3, h4⟩
        push_cast at h2
        by_cases hm : m < 1 + k
        · have hv : validMode (1 + k) N m n := ⟨h1, hm, h3, h4⟩
          have hr := idx_range hN hv
          rw [List.getElem?_append_left (by omega)]
          exact ih2 m n hv
        · have hm' : m = 1 + k := by omega
          subst hm'
          rw [if_neg (by omega)] at h4
          have ei : idx N (1 + k) n = mnMax (1 + k) N + (n - -N) := by
            rw [idx_pos (by omega)]; unfold mnMax; ring
          have hpos : 0 ≤ mnMax (1 + k) N := by omega
          rw [List.getElem?_append_right (by omega)]
          have e2 : (idx N (1 + k) n).toNat - (stateModeTable (1 + k) N nfp).length = (n - -N).toNat := by omega
          rw [e2]
          exact getrow (-N) n h4 h3 (1 + k)
  have := key (M - 1).toNat
  have e : 1 + ((M - 1).toNat : Int) = M := by omega
  rwa [e] at this

/-- **C09** (Python): the table built by the Python continuation code is the same table. -/
theorem C09_python_table (M N nfp : Int) (hM : 1 ≤ M) (hN : 0 ≤ N) :
    ∃ xm xn, computeConversionIndices N M nfp = .ok (xm, xn) ∧
      stateModeTable M N nfp = (irange 0 (mnMax M N)).map (fun i => (xm i, xn i)) := by
  obtain ⟨xm, xn, h1, h2, h3, _⟩ := C09_mode_table M N nfp hM hN
  obtain ⟨l1, l2⟩ := table_length M N nfp hM hN
  refine ⟨xm, xn, h1, ?_⟩
  apply List.ext_getElem?
  intro k
  by_cases hk : (k : Int) < mnMax M N
  · obtain ⟨⟨m, n⟩, ⟨hv, e⟩, _⟩ := h3 k (by omega) hk
    obtain ⟨i, e', _, _, x1, x2⟩ := h2 m n hv
    have hnn : m = 0 → 0 ≤ n := by
      obtain ⟨_, _, _, v4⟩ := hv
      rintro rfl; simpa using v4
    rw [mnIdx_eq hnn, Outcome.ok.injEq] at e e'
    have hi : i = k := by omega
    subst hi
    have := l2 m n hv
    rw [e] at this
    simp only [Int.toNat_natCast] at this
    rw [this, List.getElem?_map]
    have : (irange 0 (mnMax M N))[k]? = some (k : Int) := by
      unfold irange
      rw [List.getElem?_map, List.getElem?_range (by omega)]
      simp
    rw [this]
    simp [x1, x2]
  · rw [List.getElem?_eq_none (by omega), List.getElem?_eq_none]
    rw [List.length_map, irange_length]; omega

example : stateModeTable 2 1 5 = [(0, 0), (0, 5), (1, -5), (1, 0), (1, 5)] := by decide
example : (mnIdx 3 2 (-1)) = .ok 13 := by decide

/-! ## C10 lossless conversion -/

/-- The two storage layouts in use. -/
def IsLayout (L : Layout) : Prop := L = fastPoloidal ∨ L = fastToroidal

theorem good_of_isLayout {L : Layout} (h : IsLayout L) (M N : Int) (hM : 1 ≤ M) (hN : 0 ≤ N) :
    GoodLayout L M N := by
  rcases h with rfl | rfl
  · exact good_fastPoloidal M N hN
  · exact good_fastToroidal M N hM

/-- **C10** (bounds): every flat index used by the conversions is inside the coefficient arrays and
    different modes never share a slot. -/
theorem C10_index_bounds (L : Layout) (hL : IsLayout L) (M N : Int) (hM : 1 ≤ M) (hN : 0 ≤ N) :
    (∀ m n, 0 ≤ m → m < M → 0 ≤ n → n ≤ N → 0 ≤ L.product m n M N ∧ L.product m n M N < M * (N + 1)) ∧
    (∀ m n m' n', 0 ≤ m → m < M → 0 ≤ n → n ≤ N → 0 ≤ m' → m' < M → 0 ≤ n' → n' ≤ N →
      L.product m n M N = L.product m' n' M N → m = m' ∧ n = n') :=
  ⟨(good_of_isLayout hL M N hM hN).bound, (good_of_isLayout hL M N hM hN).inj⟩

variable {K : Type} [Field K] [CharZero K]

theorem nrm_ne {ms ns : Int → K} (h1 : ∀ m, ms m ≠ 0) (h2 : ∀ n, ns n ≠ 0) (m n : Int) :
    nrm ms ns m n ≠ 0 := by
  unfold nrm; exact one_div_ne_zero (mul_ne_zero (h1 m) (h2 n))

/-- **C10** (cosine): combined -> product -> combined is the identity on all `mnmax` coefficients,
    for both layouts and whatever the output buffers contained before. -/
theorem C10_cos_roundtrip (L : Layout) (hL : IsLayout L) (M N : Int) (hM : 1 ≤ M) (hN : 0 ≤ N)
    (ms ns : Int → K) (hms : ∀ m, ms m ≠ 0) (hns : ∀ n, ns n ≠ 0) (fc cc0 ss0 f0 : Int → K) :
    ∃ cc ss fc', cos_to_cc_ss L ms ns fc cc0 ss0 N M = .ok (cc, ss) ∧
      cc_ss_to_cos L ms ns cc ss f0 N M = .ok fc' ∧
      ∀ i, 0 ≤ i → i < mnMax M N → fc' i = fc i := by
  obtain ⟨cc, ss, h1, h2⟩ := cos_to_cc_ss_eq L M N hM hN (good_of_isLayout hL M N hM hN) ms ns fc cc0 ss0
  obtain ⟨fc', h3, h4, h5⟩ := cc_ss_to_cos_eq L M N hM hN ms ns cc ss f0
  refine ⟨cc, ss, fc', h1, h3, ?_⟩
  intro i hi0 hi1
  obtain ⟨m, n, ⟨v1, v2, v3, v4⟩, rfl⟩ := idx_surj hN hi0 hi1 hM
  have hne := nrm_ne hms hns
  by_cases hm : m = 0
  · subst hm
    simp only [if_true] at v4
    rw [h4 n v4 v3, (h2 0 n (le_refl _) v2 v4 v3).1, if_pos (Or.inl rfl)]
    rw [mul_div_cancel_left₀ _ (hne _ _)]
  · simp only [hm, if_false] at v4
    rw [h5 m n (by omega) v2 v4 v3]
    by_cases hn : n = 0
    · subst hn
      rw [if_pos rfl, (h2 m 0 v1 v2 (le_refl _) hN).1, if_pos (Or.inr rfl)]
      rw [mul_div_cancel_left₀ _ (hne _ _)]
    · rw [if_neg hn]
      have hab : 0 ≤ |n| ∧ |n| ≤ N := ⟨abs_nonneg n, by rw [abs_le]; omega⟩
      have hab0 : |n| ≠ 0 := abs_ne_zero.2 hn
      rw [(h2 m |n| v1 v2 hab.1 hab.2).1, (h2 m |n| v1 v2 hab.1 hab.2).2]
      rw [if_neg (by simp [hm, hab0]), if_neg (by simp [hm, hab0])]
      have hk := hne m |n|
      have h20 : (2 : K) ≠ 0 := by norm_num
      rcases lt_or_gt_of_ne hn with h | h
      · rw [abs_of_neg h, Int.sign_eq_neg_one_of_neg h] at *
        push_cast; rw [neg_neg]; field_simp; ring
      · rw [abs_of_pos h, Int.sign_eq_one_of_pos h] at *
        push_cast; field_simp; ring

/-- **C10** (sine): the same for sine coefficients, except that the meaningless `m=n=0` entry
    becomes zero. -/
theorem C10_sin_roundtrip (L : Layout) (hL : IsLayout L) (M N : Int) (hM : 1 ≤ M) (hN : 0 ≤ N)
    (ms ns : Int → K) (hms : ∀ m, ms m ≠ 0) (hns : ∀ n, ns n ≠ 0) (fs sc0 cs0 f0 : Int → K) :
    ∃ sc cs fs', sin_to_sc_cs L ms ns fs sc0 cs0 N M = .ok (sc, cs) ∧
      sc_cs_to_sin L ms ns sc cs f0 N M = .ok fs' ∧ fs' 0 = 0 ∧
      ∀ i, 1 ≤ i → i < mnMax M N → fs' i = fs i := by
  obtain ⟨sc, cs, h1, h2⟩ := sin_to_sc_cs_eq L M N hM hN (good_of_isLayout hL M N hM hN) ms ns fs sc0 cs0
  obtain ⟨fs', h3, h30, h4, h5⟩ := sc_cs_to_sin_eq L M N hM hN ms ns sc cs f0
  refine ⟨sc, cs, fs', h1, h3, by rw [idx_zero] at h30; exact h30, ?_⟩
  intro i hi0 hi1
  obtain ⟨m, n, ⟨v1, v2, v3, v4⟩, rfl⟩ := idx_surj hN (by omega) hi1 hM
  have hne := nrm_ne hms hns
  by_cases hm : m = 0
  · subst hm
    simp only [if_true] at v4
    rw [idx_zero] at hi0
    have hn : n ≠ 0 := by omega
    rw [h4 n hi0 v3, (h2 0 n (le_refl _) v2 v4 v3).2, if_neg hn, if_pos rfl, neg_neg]
    rw [mul_div_cancel_left₀ _ (hne _ _)]
  · simp only [hm, if_false] at v4
    rw [h5 m n (by omega) v2 v4 v3]
    by_cases hn : n = 0
    · subst hn
      rw [if_pos rfl, (h2 m 0 v1 v2 (le_refl _) hN).1, if_neg hm, if_pos rfl]
      rw [mul_div_cancel_left₀ _ (hne _ _)]
    · rw [if_neg hn]
      have hab : 0 ≤ |n| ∧ |n| ≤ N := ⟨abs_nonneg n, by rw [abs_le]; omega⟩
      have hab0 : |n| ≠ 0 := abs_ne_zero.2 hn
      rw [(h2 m |n| v1 v2 hab.1 hab.2).1, (h2 m |n| v1 v2 hab.1 hab.2).2]
      rw [if_neg hm, if_neg hab0, if_neg hab0, if_neg hm]
      have hk := hne m |n|
      have h20 : (2 : K) ≠ 0 := by norm_num
      rcases lt_or_gt_of_ne hn with h | h
      · rw [abs_of_neg h, Int.sign_eq_neg_one_of_neg h] at *
        push_cast; rw [neg_neg]; field_simp; ring
      · rw [abs_of_pos h, Int.sign_eq_one_of_pos h] at *
        push_cast; field_simp; ring

/-- **C10** (other direction, cosine): product -> combined -> product is the identity on product
    coefficients whose meaningless entries (`ss` with `m=0` or `n=0`) vanish. -/
theorem C10_cc_ss_roundtrip (L : Layout) (hL : IsLayout L) (M N : Int) (hM : 1 ≤ M) (hN : 0 ≤ N)
    (ms ns : Int → K) (hms : ∀ m, ms m ≠ 0) (hns : ∀ n, ns n ≠ 0) (cc ss f0 cc0 ss0 : Int → K)
    (hz : ∀ m n, 0 ≤ m → m < M → 0 ≤ n → n ≤ N → (m = 0 ∨ n = 0) → ss (L.product m n M N) = 0) :
    ∃ fc cc' ss', cc_ss_to_cos L ms ns cc ss f0 N M = .ok fc ∧
      cos_to_cc_ss L ms ns fc cc0 ss0 N M = .ok (cc', ss') ∧
      ∀ m n, 0 ≤ m → m < M → 0 ≤ n → n ≤ N →
        cc' (L.product m n M N) = cc (L.product m n M N) ∧
        ss' (L.product m n M N) = ss (L.product m n M N) := by
  obtain ⟨fc, h3, h4, h5⟩ := cc_ss_to_cos_eq L M N hM hN ms ns cc ss f0
  obtain ⟨cc', ss', h1, h2⟩ := cos_to_cc_ss_eq L M N hM hN (good_of_isLayout hL M N hM hN) ms ns fc cc0 ss0
  refine ⟨fc, cc', ss', h3, h1, ?_⟩
  intro m n h0 hm1 hn0 hn1
  have hk := nrm_ne hms hns m n
  have h20 : (2 : K) ≠ 0 := by norm_num
  rw [(h2 m n h0 hm1 hn0 hn1).1, (h2 m n h0 hm1 hn0 hn1).2]
  by_cases hm : m = 0
  · subst hm
    rw [if_pos (Or.inl rfl), if_pos (Or.inl rfl), h4 n hn0 hn1, hz 0 n h0 hm1 hn0 hn1 (Or.inl rfl)]
    exact ⟨mul_div_cancel₀ _ hk, rfl⟩
  · by_cases hn : n = 0
    · subst hn
      rw [if_pos (Or.inr rfl), if_pos (Or.inr rfl), h5 m 0 (by omega) hm1 (by omega) hN, if_pos rfl,
        hz m 0 h0 hm1 hn0 hn1 (Or.inr rfl)]
      exact ⟨mul_div_cancel₀ _ hk, rfl⟩
    · rw [if_neg (by simp [hm, hn]), if_neg (by simp [hm, hn]), h5 m n (by omega) hm1 (by omega) hn1,
        h5 m (-n) (by omega) hm1 (by omega) (by omega), if_neg hn, if_neg (by omega), abs_neg,
        abs_of_nonneg hn0, Int.sign_eq_one_of_pos (by omega), Int.sign_eq_neg_one_of_neg (by omega)]
      push_cast
      constructor <;> (field_simp; ring)

/-- **C10** (other direction, sine): product -> combined -> product is the identity on product
    coefficients whose meaningless entries (`sc` with `m=0`, `cs` with `n=0`) vanish. -/
theorem C10_sc_cs_roundtrip (L : Layout) (hL : IsLayout L) (M N : Int) (hM : 1 ≤ M) (hN : 0 ≤ N)
    (ms ns : Int → K) (hms : ∀ m, ms m ≠ 0) (hns : ∀ n, ns n ≠ 0) (sc cs f0 sc0 cs0 : Int → K)
    (hz : ∀ n, 0 ≤ n → n ≤ N → sc (L.product 0 n M N) = 0)
    (hz' : ∀ m, 0 ≤ m → m < M → cs (L.product m 0 M N) = 0) :
    ∃ fs sc' cs', sc_cs_to_sin L ms ns sc cs f0 N M = .ok fs ∧
      sin_to_sc_cs L ms ns fs sc0 cs0 N M = .ok (sc', cs') ∧
      ∀ m n, 0 ≤ m → m < M → 0 ≤ n → n ≤ N →
        sc' (L.product m n M N) = sc (L.product m n M N) ∧
        cs' (L.product m n M N) = cs (L.product m n M N) := by
  obtain ⟨fs, h3, _, h4, h5⟩ := sc_cs_to_sin_eq L M N hM hN ms ns sc cs f0
  obtain ⟨sc', cs', h1, h2⟩ := sin_to_sc_cs_eq L M N hM hN (good_of_isLayout hL M N hM hN) ms ns fs sc0 cs0
  refine ⟨fs, sc', cs', h3, h1, ?_⟩
  intro m n h0 hm1 hn0 hn1
  have hk := nrm_ne hms hns m n
  have h20 : (2 : K) ≠ 0 := by norm_num
  rw [(h2 m n h0 hm1 hn0 hn1).1, (h2 m n h0 hm1 hn0 hn1).2]
  by_cases hm : m = 0
  · subst hm
    rw [if_pos rfl, hz n hn0 hn1]
    refine ⟨rfl, ?_⟩
    by_cases hn : n = 0
    · subst hn; rw [if_pos rfl, hz' 0 h0 hm1]
    · rw [if_neg hn, if_pos rfl, h4 n (by omega) hn1]
      field_simp
  · by_cases hn : n = 0
    · subst hn
      rw [if_neg hm, if_pos rfl, if_pos rfl, h5 m 0 (by omega) hm1 (by omega) hN, if_pos rfl,
        hz' m h0 hm1]
      exact ⟨mul_div_cancel₀ _ hk, rfl⟩
    · rw [if_neg hm, if_neg hn, if_neg hn, if_neg hm, h5 m n (by omega) hm1 (by omega) hn1,
        h5 m (-n) (by omega) hm1 (by omega) (by omega), if_neg hn, if_neg (by omega), abs_neg,
        abs_of_nonneg hn0, Int.sign_eq_one_of_pos (by omega), Int.sign_eq_neg_one_of_neg (by omega)]
      push_cast
      constructor <;> (field_simp; ring)

/-! ## C11 same function -/

theorem scale_ne (m : Int) : scale m ≠ 0 := by
  unfold scale; split <;> norm_num

/-- reindexing the flat coefficient list as modes -/
theorem sum_modes (M N : Int) (hM : 1 ≤ M) (hN : 0 ≤ N) (F : Int → ℝ) :
    ∑ i ∈ Ico 0 (mnMax M N), F i = ∑ n ∈ Ico 0 (N + 1), F (idx N 0 n) +
      ∑ m ∈ Ico 1 M, ∑ n ∈ Ico (-N) (N + 1), F (idx N m n) := by
  have hb : 0 < 2 * N + 1 := by omega
  have hnn := Int.mul_nonneg (show 0 ≤ M - 1 by omega) hb.le
  rw [sum_Ico_split (show (0:Int) ≤ N + 1 by omega) (by unfold mnMax; omega)]
  have p1 : ∑ n ∈ Ico 0 (N + 1), F n = ∑ n ∈ Ico 0 (N + 1), F (idx N 0 n) := by
    apply Finset.sum_congr rfl; intro n _; rw [idx_zero]
  rw [p1]
  congr 1
  · have e : Ico (N + 1) (mnMax M N) = Ico (0 + (N + 1)) ((M - 1) * (2 * N + 1) + (N + 1)) := by
      unfold mnMax; congr 1 <;> ring
    rw [e, sum_Ico_shift]
    have h := flat_sum (a := M - 1) hb (fun k l => F (k * (2 * N + 1) + l + (N + 1)))
    have h' : ∑ kl ∈ Ico 0 ((M - 1) * (2 * N + 1)), F (kl + (N + 1)) =
        ∑ kl ∈ Ico 0 ((M - 1) * (2 * N + 1)), F (kl / (2 * N + 1) * (2 * N + 1) + kl % (2 * N + 1) + (N + 1)) := by
      apply Finset.sum_congr rfl
      intro kl hkl
      rw [Finset.mem_Ico] at hkl
      rw [(flat_div hb hkl.1 hkl.2).2.2.2.2]
    rw [h', h]
    have e2 : Ico (1:Int) M = Ico (0 + 1) (M - 1 + 1) := by congr 1 <;> ring
    rw [e2, sum_Ico_shift]
    apply Finset.sum_congr rfl
    intro k hk
    rw [Finset.mem_Ico] at hk
    have e3 : Ico (-N) (N + 1) = Ico (0 + -N) (2 * N + 1 + -N) := by congr 1 <;> ring
    rw [e3, sum_Ico_shift]
    apply Finset.sum_congr rfl
    intro l _
    rw [idx_pos (by omega)]
    congr 1; ring

theorem sum_pm (N : Int) (hN : 0 ≤ N) (g : Int → ℝ) :
    ∑ n ∈ Ico (-N) (N + 1), g n = g 0 + ∑ n ∈ Ico 1 (N + 1), (g n + g (-n)) := by
  rw [sum_Ico_split (show -N ≤ 0 by omega) (show (0:Int) ≤ N + 1 by omega),
    sum_Ico_int_first (show (0:Int) < N + 1 by omega), Finset.sum_add_distrib]
  have : ∑ n ∈ Ico (-N) 0, g n = ∑ n ∈ Ico 1 (N + 1), g (-n) := by
    refine Finset.sum_nbij' (fun j => -j) (fun j => -j) ?_ ?_ ?_ ?_ ?_
    · intro j h; rw [Finset.mem_Ico] at *; omega
    · intro j h; rw [Finset.mem_Ico] at *; omega
    · intro j _; ring
    · intro j _; ring
    · intro j _; simp
  rw [this, zero_add]; ring

/-- **C11** (cosine): the product-basis coefficients computed from combined cosine coefficients
    describe the same function of the angles (`ζ = nfp φ`), for both layouts. -/
theorem C11_cos_same_function (L : Layout) (hL : IsLayout L) (M N nfp : Int) (hM : 1 ≤ M) (hN : 0 ≤ N)
    (fc cc0 ss0 : Int → ℝ) :
    ∃ cc ss xm xn, cos_to_cc_ss L scale scale fc cc0 ss0 N M = .ok (cc, ss) ∧
      computeConversionIndices N M nfp = .ok (xm, xn) ∧
      ∀ θ φ : ℝ, productCos M N (fun m n => cc (L.product m n M N)) (fun m n => ss (L.product m n M N)) θ (nfp * φ)
        = combinedCos (mnMax M N) xm xn fc θ φ := by
  obtain ⟨cc, ss, h1, h2⟩ := cos_to_cc_ss_eq L M N hM hN (good_of_isLayout hL M N hM hN) scale scale fc cc0 ss0
  obtain ⟨xm, xn, t1, t2, _⟩ := C09_mode_table M N nfp hM hN
  refine ⟨cc, ss, xm, xn, h1, t1, ?_⟩
  intro θ φ
  have tx : ∀ m n, validMode M N m n → xm (idx N m n) = m ∧ xn (idx N m n) = n * nfp := by
    intro m n hv
    obtain ⟨i, e, _, _, x1, x2⟩ := t2 m n hv
    have hnn : m = 0 → 0 ≤ n := by
      obtain ⟨_, _, _, v4⟩ := hv
      rintro rfl; simpa using v4
    rw [mnIdx_eq hnn, Outcome.ok.injEq] at e
    rw [e]; exact ⟨x1, x2⟩
  unfold combinedCos productCos
  dsimp only
  rw [sum_modes M N hM hN, sum_Ico_int_first (show (0:Int) < M by omega), zero_add]
  congr 1
  · apply Finset.sum_congr rfl
    intro n hn
    rw [Finset.mem_Ico] at hn
    obtain ⟨x1, x2⟩ := tx 0 n ⟨le_refl _, by omega, by omega, by simp; omega⟩
    rw [(h2 0 n (le_refl _) (by omega) hn.1 (by omega)).1, (h2 0 n (le_refl _) (by omega) hn.1 (by omega)).2,
      if_pos (Or.inl rfl), if_pos (Or.inl rfl), x1, x2]
    have := scale_ne n
    have := scale_ne 0
    unfold nrm
    push_cast
    rw [zero_mul, zero_sub, Real.cos_neg, Real.cos_zero, mul_assoc (n:ℝ) (nfp:ℝ) φ]
    field_simp
    ring
  · apply Finset.sum_congr rfl
    intro m hm
    rw [Finset.mem_Ico] at hm
    rw [sum_pm N hN, sum_Ico_int_first (show (0:Int) < N + 1 by omega), zero_add]
    have sm := scale_ne m
    have s0 := scale_ne 0
    congr 1
    · obtain ⟨x1, x2⟩ := tx m 0 ⟨by omega, by omega, by omega, by rw [if_neg (by omega)]; omega⟩
      rw [(h2 m 0 (by omega) hm.2 (le_refl _) hN).1, (h2 m 0 (by omega) hm.2 (le_refl _) hN).2,
        if_pos (Or.inr rfl), if_pos (Or.inr rfl), x1, x2]
      unfold nrm
      push_cast
      simp only [zero_mul, mul_zero, Real.cos_zero, sub_zero, Real.sin_zero]
      field_simp
      ring
    · apply Finset.sum_congr rfl
      intro n hn
      rw [Finset.mem_Ico] at hn
      obtain ⟨x1, x2⟩ := tx m n ⟨by omega, by omega, by omega, by rw [if_neg (by omega)]; omega⟩
      obtain ⟨y1, y2⟩ := tx m (-n) ⟨by omega, by omega, by omega, by rw [if_neg (by omega)]; omega⟩
      have hmn : ¬ (m = 0 ∨ n = 0) := by omega
      rw [(h2 m n (by omega) hm.2 (by omega) (by omega)).1, (h2 m n (by omega) hm.2 (by omega) (by omega)).2,
        if_neg hmn, if_neg hmn, x1, x2, y1, y2]
      have sn := scale_ne n
      have ea : (m:ℝ) * θ - ((n * nfp : Int) : ℝ) * φ = m * θ - n * (nfp * φ) := by push_cast; ring
      have eb : (m:ℝ) * θ - ((-n * nfp : Int) : ℝ) * φ = m * θ + n * (nfp * φ) := by push_cast; ring
      rw [ea, eb, Real.cos_sub, Real.cos_add]
      unfold nrm
      field_simp
      ring

/-- **C11** (sine): the same for sine coefficients. -/
theorem C11_sin_same_function (L : Layout) (hL : IsLayout L) (M N nfp : Int) (hM : 1 ≤ M) (hN : 0 ≤ N)
    (fs sc0 cs0 : Int → ℝ) :
    ∃ sc cs xm xn, sin_to_sc_cs L scale scale fs sc0 cs0 N M = .ok (sc, cs) ∧
      computeConversionIndices N M nfp = .ok (xm, xn) ∧
      ∀ θ φ : ℝ, productSin M N (fun m n => sc (L.product m n M N)) (fun m n => cs (L.product m n M N)) θ (nfp * φ)
        = combinedSin (mnMax M N) xm xn fs θ φ := by
  obtain ⟨sc, cs, h1, h2⟩ := sin_to_sc_cs_eq L M N hM hN (good_of_isLayout hL M N hM hN) scale scale fs sc0 cs0
  obtain ⟨xm, xn, t1, t2, _⟩ := C09_mode_table M N nfp hM hN
  refine ⟨sc, cs, xm, xn, h1, t1, ?_⟩
  intro θ φ
  have tx : ∀ m n, validMode M N m n → xm (idx N m n) = m ∧ xn (idx N m n) = n * nfp := by
    intro m n hv
    obtain ⟨i, e, _, _, x1, x2⟩ := t2 m n hv
    have hnn : m = 0 → 0 ≤ n := by
      obtain ⟨_, _, _, v4⟩ := hv
      rintro rfl; simpa using v4
    rw [mnIdx_eq hnn, Outcome.ok.injEq] at e
    rw [e]; exact ⟨x1, x2⟩
  unfold combinedSin productSin
  dsimp only
  rw [sum_modes M N hM hN, sum_Ico_int_first (show (0:Int) < M by omega), zero_add]
  congr 1
  · apply Finset.sum_congr rfl
    intro n hn
    rw [Finset.mem_Ico] at hn
    obtain ⟨x1, x2⟩ := tx 0 n ⟨le_refl _, by omega, by omega, by simp; omega⟩
    rw [(h2 0 n (le_refl _) (by omega) hn.1 (by omega)).1, (h2 0 n (le_refl _) (by omega) hn.1 (by omega)).2,
      if_pos rfl, x1, x2]
    have := scale_ne n
    have := scale_ne 0
    by_cases hn0 : n = 0
    · subst hn0; simp
    · rw [if_neg hn0, if_pos rfl]
      unfold nrm
      push_cast
      simp only [zero_mul, zero_sub, Real.sin_neg, Real.cos_zero, Real.sin_zero, mul_assoc (n:ℝ) (nfp:ℝ) φ]
      field_simp
      ring
  · apply Finset.sum_congr rfl
    intro m hm
    rw [Finset.mem_Ico] at hm
    rw [sum_pm N hN, sum_Ico_int_first (show (0:Int) < N + 1 by omega), zero_add]
    have sm := scale_ne m
    have s0 := scale_ne 0
    have hm0 : m ≠ 0 := by omega
    congr 1
    · obtain ⟨x1, x2⟩ := tx m 0 ⟨by omega, by omega, by omega, by rw [if_neg (by omega)]; omega⟩
      rw [(h2 m 0 (by omega) hm.2 (le_refl _) hN).1, (h2 m 0 (by omega) hm.2 (le_refl _) hN).2,
        if_neg hm0, if_pos rfl, if_pos rfl, x1, x2]
      unfold nrm
      push_cast
      simp only [zero_mul, mul_zero, Real.cos_zero, sub_zero, Real.sin_zero]
      field_simp
      ring
    · apply Finset.sum_congr rfl
      intro n hn
      rw [Finset.mem_Ico] at hn
      obtain ⟨x1, x2⟩ := tx m n ⟨by omega, by omega, by omega, by rw [if_neg (by omega)]; omega⟩
      obtain ⟨y1, y2⟩ := tx m (-n) ⟨by omega, by omega, by omega, by rw [if_neg (by omega)]; omega⟩
      have hn0 : n ≠ 0 := by omega
      rw [(h2 m n (by omega) hm.2 (by omega) (by omega)).1, (h2 m n (by omega) hm.2 (by omega) (by omega)).2,
        if_neg hm0, if_neg hn0, if_neg hn0, if_neg hm0, x1, x2, y1, y2]
      have sn := scale_ne n
      have ea : (m:ℝ) * θ - ((n * nfp : Int) : ℝ) * φ = m * θ - n * (nfp * φ) := by push_cast; ring
      have eb : (m:ℝ) * θ - ((-n * nfp : Int) : ℝ) * φ = m * θ + n * (nfp * φ) := by push_cast; ring
      rw [ea, eb, Real.sin_sub, Real.sin_add]
      unfold nrm
      field_simp
      ring

/-- the hypotheses of the C10/C11 theorems are met by every resolution the solver uses -/
example : IsLayout fastPoloidal ∧ IsLayout fastToroidal ∧ (1:Int) ≤ 12 ∧ (0:Int) ≤ 0 ∧
    (∀ m, scale m ≠ 0) := ⟨Or.inl rfl, Or.inr rfl, by decide, by decide, scale_ne⟩

/-- concrete round trip over ℚ with unit scales, `mpol = 2`, `ntor = 1` -/
example : ∃ cc ss fc', cos_to_cc_ss fastPoloidal (fun _ => (1:ℚ)) (fun _ => 1) (fun i => i * i + 1)
      (fun _ => 7) (fun _ => 7) 1 2 = .ok (cc, ss) ∧
    cc_ss_to_cos fastPoloidal (fun _ => (1:ℚ)) (fun _ => 1) cc ss (fun _ => 7) 1 2 = .ok fc' ∧
    fc' 4 = 17 ∧ cc 3 = 22 ∧ ss 3 = 12 := by
  refine ⟨_, _, _, rfl, rfl, ?_, ?_, ?_⟩ <;> decide +kernel

end Verif.Fourier
