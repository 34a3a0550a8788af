import Verif.HotRestart.Lemmas

/-!
# C43: hot restart
-/
namespace Verif.HotRestart
open Verif Verif.Coeffs Verif.Fourier

/-! ## what the check accepts -/

/-- An accepted initial state has the symmetry flag and the resolution of the run: the shapes of
    `rmnc`, `zmns`, `lmns_full` are `mnmax x ns` with the `mpol`, `ntor` and first `ns` of the run. -/
theorem C43_accepts_partial (a b : RunSpec) (h : checkInitialState a b = .ok ()) :
    a.lasym = b.lasym ∧ mnMax a.mpol a.ntor = mnMax b.mpol b.ntor ∧ a.mpol = b.mpol ∧ a.ntor = b.ntor ∧
      ∃ ns, a.ns_array.getLast? = some ns ∧ b.ns_array.head? = some ns := by
  unfold checkInitialState at h
  split at h
  · simp at h
  · split at h
    · simp at h
    · split at h
      · simp at h
      · rename_i h1 h2 h3
        simp only [ne_eq, not_not] at h1 h2 h3
        refine ⟨h1, by rw [h2, h3], h2, h3, ?_⟩
        split at h
        · rename_i p q hp hq
          split at h
          · simp at h
          · rename_i e
            simp only [ne_eq, not_not] at e
            exact ⟨p, hp, by rw [e]; exact hq⟩
        · simp at h

/-- conversely every state of matching resolution is accepted -/
theorem C43_accepts_matching (a b : RunSpec) (ns : Int) (h1 : a.lasym = b.lasym) (h2 : a.mpol = b.mpol)
    (h3 : a.ntor = b.ntor) (h4 : a.ns_array.getLast? = some ns) (h5 : b.ns_array.head? = some ns) :
    checkInitialState a b = .ok () := by
  simp [checkInitialState, h1, h2, h3, h4, h5]

/-- The number of field periods is not compared: a state of a 5-period configuration is accepted for a
    2-period run, although its coefficients then describe another geometry. -/
theorem C43_nfp_unchecked : ∃ a b : RunSpec, a.nfp ≠ b.nfp ∧ checkInitialState a b = .ok () :=
  ⟨⟨false, 6, 4, [5, 11], 5⟩, ⟨false, 6, 4, [11], 2⟩, by decide, by decide⟩

/-! ## reading in and writing out -/

theorem gIdx_eq (x : Ctx) (j m n : Int) : gIdx x j m n = fcIdx 0 (x.ntor + 1) (x.mpol - 1) j n m := by
  unfold gIdx fcIdx; ring

theorem unconstrain_col (x : Ctx) (hM : 2 ≤ x.mpol) (g : State) (j m n : Int) (h : x.isMode m n) :
    (fun c => unconstrain x g c (gIdx x j m n))
      = if (0 ≤ j ∧ j < x.ns) ∧ m = 1 then mixF x 1 (fun c => g c (gIdx x j m n))
        else fun c => g c (gIdx x j m n) := by
  obtain ⟨h1, h2, h3, h4⟩ := h
  have A := fun s : State => grid3 (lo := 0) (hi := x.ns) (j0 := 0) (mpol := x.ntor + 1) (ntor := x.mpol - 1)
    (mlo := 0) (mhi := x.ntor + 1) (nlo := 1) (nhi := 1 + 1) (by omega) (by omega) (by omega) (by omega)
    (fun j n m g =>
        let i := gIdx x j m n
        let old_rss := g .rss i
        let g := put g .rss i (old_rss + g .zcs i)
        put g .zcs i (old_rss - g .zcs i))
    (fun j n m v => mixF ⟨2, 1, false, 0, 0, 0, 0, 0⟩ 1 v)
    (by
      intro j n m g i
      funext c
      rw [← gIdx_eq]
      by_cases hi : i = gIdx x j m n <;> cases c <;> simp [put_apply, hi, mixF, Ctx.lthreed])
    s j n m h3 (by omega) h1 (by omega)
  have B := fun s : State => grid3 (lo := 0) (hi := x.ns) (j0 := 0) (mpol := x.ntor + 1) (ntor := x.mpol - 1)
    (mlo := 0) (mhi := x.ntor + 1) (nlo := 1) (nhi := 1 + 1) (by omega) (by omega) (by omega) (by omega)
    (fun j n m g =>
        let i := gIdx x j m n
        let old_rsc := g .rsc i
        let g := put g .rsc i (old_rsc + g .zcc i)
        put g .zcc i (old_rsc - g .zcc i))
    (fun j n m v => mixF ⟨2, 0, true, 0, 0, 0, 0, 0⟩ 1 v)
    (by
      intro j n m g i
      funext c
      rw [← gIdx_eq]
      by_cases hi : i = gIdx x j m n <;> cases c <;> simp [put_apply, hi, mixF, Ctx.lthreed])
    s j n m h3 (by omega) h1 (by omega)
  simp only [forRange_single, ← gIdx_eq] at A B
  have hc : ((0 ≤ j ∧ j < x.ns) ∧ (0 ≤ n ∧ n < x.ntor + 1) ∧ 1 ≤ m ∧ m < 1 + 1) ↔ ((0 ≤ j ∧ j < x.ns) ∧ m = 1) := by
    omega
  simp only [hc] at A B
  have L1 : ∀ a b c d e f, (⟨2, 1, a, b, c, d, e, f⟩ : Ctx).lthreed = true := fun _ _ _ _ _ _ => rfl
  have L2 : ∀ a b c d e f, (⟨2, 0, a, b, c, d, e, f⟩ : Ctx).lthreed = false := fun _ _ _ _ _ _ => rfl
  unfold unconstrain
  dsimp only
  funext c
  by_cases hl : x.lasym
  · rw [if_pos hl]
    rw [congrFun (B _) c]
    by_cases h3 : x.lthreed
    · rw [if_pos h3, A g]
      split
      · cases c <;> simp [mixF, hl, h3, L1, L2]
      · rfl
    · rw [if_neg h3]
      split
      · cases c <;> simp [mixF, hl, h3, L1, L2]
      · rfl
  · rw [if_neg hl]
    by_cases h3 : x.lthreed
    · rw [if_pos h3, congrFun (A g) c]
      split
      · cases c <;> simp [mixF, hl, h3, L1, L2]
      · rfl
    · rw [if_neg h3]
      split
      · cases c <;> simp [mixF, hl, h3]
      · rfl

theorem writeSurface_eq (x : Ctx) (hM : 1 ≤ x.mpol) (hN : 0 ≤ x.ntor) (ms ns : Int → ℝ) (g : State) (jF : Int) :
    ∃ v, writeSurface x ms ns g jF = .ok v ∧
      ∀ m n, validMode x.mpol x.ntor m n → v (idx x.ntor m n) = symModes x ms ns g jF m n := by
  have F1 := assign_first x.ntor 0 (by omega) (fun n => symModes x ms ns g jF 0 n)
    ((0, fun _ => (0, 0, 0)) : Int × (Int → ℝ × ℝ × ℝ)) rfl
  have F2 := assign_rows x.mpol x.ntor hM hN (fun m n => symModes x ms ns g jF m n)
    (forRange 0 (x.ntor + 1) (fun n (s : Int × (Int → ℝ × ℝ × ℝ)) =>
      (s.1 + 1, upd s.2 s.1 (symModes x ms ns g jF 0 n))) (0, fun _ => (0, 0, 0))) F1.1
  dsimp only at F1 F2
  unfold writeSurface
  dsimp only
  rw [if_pos F2.1]
  refine ⟨_, rfl, ?_⟩
  intro m n ⟨h1, h2, h3, h4⟩
  by_cases e : m = 0
  · subst e
    rw [if_pos rfl] at h4
    rw [idx_zero, F2.2.1 n (by omega), F1.2.2 n h4 h3]
  · rw [if_neg e] at h4
    exact F2.2.2 m n (by omega) h2 h4 h3

/-- **Reading a state in and writing it out gives back the geometry.** Each thread `x` reads its surfaces;
    `G` is any gathered result agreeing with the thread's state. For every surface the thread owns (except
    the boundary of a fixed-boundary run, which is prescribed by the input) the written `rmnc`, `zmns` are
    those of the initial state, and so is `lmns_full` on every surface but the axis. Excluded is what is
    zero by convention: the sine coefficient of mode (0,0), and modes with `m > 0`, `n ≠ 0` on the axis.

    What is missing for the full property: it covers the stellarator-symmetric part only; see
    `C43_asymmetric_dropped`. -/
theorem C43_roundtrip_partial (x : Ctx) (hM : 2 ≤ x.mpol) (hN : 0 ≤ x.ntor) (h0 : 0 ≤ x.nsMin)
    (hns : x.nsMax ≤ x.ns)
    (ms ns : Int → ℝ) (hms : ∀ m, ms m ≠ 0) (hnz : ∀ n, ns n ≠ 0)
    (rmnc zmns lmns : Mat) (lamscale : ℝ) (hl : lamscale ≠ 0) (phipF : Int → ℝ) (hp : ∀ j, phipF j ≠ 0)
    (b : Option Boundary.Arrays) (s : State) :
    ∃ s', initFromState x ms ns rmnc zmns lmns lamscale (fun i => phipF (i + x.nsMinF1)) b s = .ok s' ∧
      ∀ G : State, (∀ c j m n, x.nsMin ≤ j → j < x.nsMax → x.isMode m n → G c (gIdx x j m n) = s' c (x.idx j m n)) →
        ∀ j, x.nsMin ≤ j → j < x.nsMax → ∃ v, writeGeometry x ms ns lamscale phipF G j = .ok v ∧
          ∀ m n, validMode x.mpol x.ntor m n → (0 < j ∨ m = 0 ∨ n = 0) →
            ((b = none ∨ j < x.ns - 1) → (v (idx x.ntor m n)).1 = rmnc (idx x.ntor m n) j ∧
              ((m = 0 → n ≠ 0) → (v (idx x.ntor m n)).2.1 = zmns (idx x.ntor m n) j)) ∧
            (0 < j → (m = 0 → n ≠ 0) → (v (idx x.ntor m n)).2.2 = lmns (idx x.ntor m n) j) := by
  obtain ⟨s', hs', R, _⟩ := init_spec x hM hN h0 ms ns rmnc zmns lmns lamscale (fun i => phipF (i + x.nsMinF1)) b s
  refine ⟨s', hs', ?_⟩
  intro G hG j hj hj'
  obtain ⟨v, hv, hval⟩ := writeSurface_eq x (by omega) hN ms ns (unconstrain x G) j
  refine ⟨_, by unfold writeGeometry; rw [hv]; rfl, ?_⟩
  intro m n hmn hax
  dsimp only
  rw [hval m n hmn]
  have GL := good_fastPoloidal x.mpol x.ntor hN
  obtain ⟨h1, h2, h3, h4⟩ := hmn
  have hn4 : -x.ntor ≤ n := by split at h4 <;> omega
  have habs : 0 ≤ |n| ∧ |n| ≤ x.ntor := by rcases abs_cases n with ⟨e, _⟩ | ⟨e, _⟩ <;> omega
  have hmode : x.isMode m |n| := ⟨h1, h2, habs.1, habs.2⟩
  have U := unconstrain_col x hM G j m |n| hmode
  have hT := hms m
  have hT' := hnz |n|
  have h3d : n ≠ 0 → x.lthreed = true := by
    intro hne; simp only [Ctx.lthreed, decide_eq_true_eq]
    have := abs_pos.mpr hne
    omega
  have hprod : ∀ m n, fastPoloidal.product m n x.mpol x.ntor = m * (x.ntor + 1) + n := fun _ _ => rfl
  -- values of the gathered, unconstrained coefficients
  constructor
  · intro hb
    have hlim : j < min x.nsMax (if b.isSome then x.ns - 1 else x.ns) := by
      rcases hb with hb | hb
      · rw [hb]; simp only [Option.isSome_none, Bool.false_eq_true, if_false]; omega
      · cases b <;> simp <;> omega
    obtain ⟨cc, ss, sc, cs, e1, e2, v1, v2, v3⟩ := R.rz j m |n| hj hlim hmode
    obtain ⟨cc', ss', e1', w1⟩ := cos_to_cc_ss_eq fastPoloidal x.mpol x.ntor (by omega) hN GL ms ns
      (fun mn => rmnc mn j) (fun _ => 0) (fun _ => 0)
    obtain ⟨sc', cs', e2', w2⟩ := sin_to_sc_cs_eq fastPoloidal x.mpol x.ntor (by omega) hN GL ms ns
      (fun mn => zmns mn j) (fun _ => 0) (fun _ => 0)
    rw [e1] at e1'; rw [e2] at e2'
    injection e1' with e1'; injection e2' with e2'
    injection e1' with a1 a2; injection e2' with a3 a4
    subst a1 a2 a3 a4
    have w1 := w1 m |n| h1 h2 habs.1 habs.2
    have w2 := w2 m |n| h1 h2 habs.1 habs.2
    rw [hprod] at w1 w2
    have u1 : unconstrain x G .rcc (gIdx x j m |n|) = cc (m * (x.ntor + 1) + |n|) := by
      have := congrFun U .rcc
      beta_reduce at this
      rw [this, ← v1, ← hG .rcc j m |n| hj hj' hmode]
      split <;> rfl
    have u2 : unconstrain x G .zsc (gIdx x j m |n|) = sc (m * (x.ntor + 1) + |n|) := by
      have := congrFun U .zsc
      beta_reduce at this
      rw [this, ← v2, ← hG .zsc j m |n| hj hj' hmode]
      split <;> rfl
    have u3 : x.lthreed = true → unconstrain x G .rss (gIdx x j m |n|) = ss (m * (x.ntor + 1) + |n|) ∧
        unconstrain x G .zcs (gIdx x j m |n|) = cs (m * (x.ntor + 1) + |n|) := by
      intro ht
      have p1 := congrFun U .rss
      have p2 := congrFun U .zcs
      beta_reduce at p1 p2
      rw [p1, p2]
      obtain ⟨v3, v4⟩ := v3 ht
      rw [← hG .rss j m |n| hj hj' hmode] at v3
      rw [← hG .zcs j m |n| hj hj' hmode] at v4
      by_cases e : m = 1
      · rw [if_pos ⟨⟨by omega, by omega⟩, e⟩]
        rw [if_pos e] at v3 v4
        simp only [mixF, ht, if_true, v3, v4]
        constructor <;> ring
      · rw [if_neg (fun h => e h.2)]
        rw [if_neg e] at v3 v4
        exact ⟨v3, v4⟩
    unfold nrm at w1 w2
    by_cases em : m = 0
    · subst em
      simp only [if_true] at h4
      rw [abs_of_nonneg h4] at *
      simp only [symModes, if_true, u1]
      simp only [true_or, if_true] at w1 w2
      refine ⟨by rw [w1.1]; field_simp, fun hn0 => ?_⟩
      have hn0 : n ≠ 0 := by simpa using hn0
      rw [if_pos (h3d hn0), (u3 (h3d hn0)).2, w2.2, if_neg hn0]
      field_simp
    · by_cases en : n = 0
      · subst en
        simp only [abs_zero] at *
        simp only [symModes, em, if_false, if_true, u1, u2, abs_zero]
        simp only [or_true, if_true, em, if_false] at w1 w2
        refine ⟨by rw [w1.1]; field_simp, fun _ => ?_⟩
        rw [w2.1]; field_simp
      · have hj0 : j > 0 := by rcases hax with h | h | h <;> [exact h; exact absurd h em; exact absurd h en]
        have ht := h3d en
        have en' : |n| ≠ 0 := by simpa using en
        simp only [symModes, em, en, if_false, hj0, if_true, ht, u1, u2, (u3 ht).1, (u3 ht).2]
        simp only [em, en', or_self, if_false] at w1 w2
        rw [w1.1, w1.2, w2.1, w2.2]
        rcases abs_cases n with ⟨e, hn⟩ | ⟨e, hn⟩
        · rw [Int.sign_eq_one_of_pos (by omega)]
          rw [e] at hT' ⊢
          push_cast
          refine ⟨?_, fun _ => ?_⟩ <;> (field_simp; ring)
        · rw [Int.sign_eq_neg_one_of_neg hn]
          rw [e] at hT' ⊢
          rw [neg_neg]
          push_cast
          refine ⟨?_, fun _ => ?_⟩ <;> (field_simp; ring)
  · intro hj0 hne
    obtain ⟨sc, cs, e2, v2, v3⟩ := R.lam j m |n| hj hj' hmode (fun h => by omega)
    obtain ⟨sc', cs', e2', w2⟩ := sin_to_sc_cs_eq fastPoloidal x.mpol x.ntor (by omega) hN GL ms ns
      (fun mn => lmns mn j) (fun _ => 0) (fun _ => 0)
    rw [e2] at e2'
    injection e2' with e2'
    injection e2' with a3 a4
    subst a3 a4
    have w2 := w2 m |n| h1 h2 habs.1 habs.2
    rw [hprod] at w2
    rw [sub_add_cancel] at v2 v3
    have u2 : unconstrain x G .lsc (gIdx x j m |n|) = sc (m * (x.ntor + 1) + |n|) / (lamscale / phipF j) := by
      have := congrFun U .lsc
      beta_reduce at this
      rw [this, ← v2, ← hG .lsc j m |n| hj hj' hmode]
      split <;> rfl
    have u3 : x.lthreed = true →
        unconstrain x G .lcs (gIdx x j m |n|) = cs (m * (x.ntor + 1) + |n|) / (lamscale / phipF j) := by
      intro ht
      have := congrFun U .lcs
      beta_reduce at this
      rw [this, ← v3 ht, ← hG .lcs j m |n| hj hj' hmode]
      split <;> rfl
    unfold nrm at w2
    have hpj := hp j
    by_cases em : m = 0
    · subst em
      simp only [if_true] at h4
      rw [abs_of_nonneg h4] at *
      have hn0 : n ≠ 0 := by simpa using hne
      simp only [symModes, if_true, (h3d hn0), u3 (h3d hn0), w2.2, hn0, if_false, show ¬ j = 0 by omega]
      field_simp
    · by_cases en : n = 0
      · subst en
        simp only [abs_zero] at *
        simp only [symModes, em, if_false, if_true, u2, abs_zero, w2.1]
        field_simp
      · have ht := h3d en
        have en' : |n| ≠ 0 := by simpa using en
        simp only [symModes, em, en, if_false, gt_iff_lt, hj0, if_true, ht, u2, u3 ht]
        simp only [em, en', if_false] at w2
        rw [w2.1, w2.2]
        rcases abs_cases n with ⟨e, hn⟩ | ⟨e, hn⟩
        · rw [Int.sign_eq_one_of_pos (by omega)]
          rw [e] at hT' ⊢
          push_cast
          field_simp; ring
        · rw [Int.sign_eq_neg_one_of_neg hn]
          rw [e] at hT' ⊢
          rw [neg_neg]
          push_cast
          field_simp; ring

/-- The boundary of a fixed-boundary run is the one of the input, not the one of the initial state. -/
theorem C43_boundary_from_input (x : Ctx) (hM : 2 ≤ x.mpol) (hN : 0 ≤ x.ntor) (h0 : 0 ≤ x.nsMin)
    (hmax : x.nsMaxF1 = x.ns) (hmin : x.nsMin ≤ x.ns - 1) (ms ns : Int → ℝ) (hms : ∀ m, ms m ≠ 0)
    (hnz : ∀ n, ns n ≠ 0) (rmnc zmns lmns : Mat) (lamscale : ℝ) (phipF : Int → ℝ) (b : Boundary.Arrays)
    (s : State) :
    ∃ s', initFromState x ms ns rmnc zmns lmns lamscale phipF (some b) s = .ok s' ∧
      ∀ m n, x.isMode m n →
        s' .rcc (x.idx (x.ns - 1) m n) * (ms m * ns n) = b .rbcc (m * (x.ntor + 1) + n) ∧
        s' .zsc (x.idx (x.ns - 1) m n) * (ms m * ns n) = b .zbsc (m * (x.ntor + 1) + n) ∧
        (x.lthreed = true → s' .rss (x.idx (x.ns - 1) m n) * (ms m * ns n) = b .rbss (m * (x.ntor + 1) + n) ∧
          s' .zcs (x.idx (x.ns - 1) m n) * (ms m * ns n) = b .zbcs (m * (x.ntor + 1) + n)) := by
  obtain ⟨s', hs', _, _, _, R⟩ := init_spec x hM hN h0 ms ns rmnc zmns lmns lamscale phipF (some b) s
  refine ⟨s', hs', fun m n h => ?_⟩
  obtain ⟨r1, r2, r3⟩ := R b rfl hmax hmin m n h
  have : ms m * ns n ≠ 0 := mul_ne_zero (hms _) (hnz _)
  refine ⟨by rw [r1, div_mul_cancel₀ _ this], by rw [r2, div_mul_cancel₀ _ this], fun h3 => ?_⟩
  obtain ⟨r3, r4⟩ := r3 h3
  exact ⟨by rw [r3, div_mul_cancel₀ _ this], by rw [r4, div_mul_cancel₀ _ this]⟩

/-- Without stellarator symmetry the round trip is false: `InitFromState` reads no asymmetric coefficient.
    Whatever the initial state is, a fresh (zeroed) state stays zero in the asymmetric arrays, and the
    asymmetric geometry written out is zero on every surface and mode of the thread. -/
theorem C43_asymmetric_dropped (x : Ctx) (hM : 2 ≤ x.mpol) (hN : 0 ≤ x.ntor) (h0 : 0 ≤ x.nsMin)
    (ms ns : Int → ℝ) (rmnc zmns lmns : Mat) (lamscale : ℝ) (phipF : Int → ℝ)
    (b : Option Boundary.Arrays) :
    ∃ s', initFromState x ms ns rmnc zmns lmns lamscale phipF b (fun _ _ => 0) = .ok s' ∧
      ∀ G : State, (∀ c j m n, x.nsMin ≤ j → j < x.nsMax → x.isMode m n → G c (gIdx x j m n) = s' c (x.idx j m n)) →
        ∀ j m n, x.nsMin ≤ j → j < x.nsMax → validMode x.mpol x.ntor m n →
          asymModes x ms ns (unconstrain x G) j m n = (0, 0) := by
  obtain ⟨s', hs', _, Z1, Z2, _⟩ := init_spec x hM hN h0 ms ns rmnc zmns lmns lamscale phipF b (fun _ _ => 0)
  refine ⟨s', hs', ?_⟩
  intro G hG j m n hj hj' ⟨h1, h2, h3, h4⟩
  have hn4 : -x.ntor ≤ n := by split at h4 <;> omega
  have habs : 0 ≤ |n| ∧ |n| ≤ x.ntor := by rcases abs_cases n with ⟨e, _⟩ | ⟨e, _⟩ <;> omega
  have hmode : x.isMode m |n| := ⟨h1, h2, habs.1, habs.2⟩
  have U := unconstrain_col x hM G j m |n| hmode
  have z : ∀ c ∈ [F.rsc, F.zcc, F.rcs, F.zss], unconstrain x G c (gIdx x j m |n|) = 0 := by
    intro c hc
    have g1 := hG .rsc j m |n| hj hj' hmode
    have g2 := hG .zcc j m |n| hj hj' hmode
    rw [(Z2 j m |n| hmode hj rfl rfl).1] at g1
    rw [(Z2 j m |n| hmode hj rfl rfl).2] at g2
    have g3 := hG .rcs j m |n| hj hj' hmode
    have g4 := hG .zss j m |n| hj hj' hmode
    rw [Z1 j m |n| .rcs hmode hj (by simp)] at g3
    rw [Z1 j m |n| .zss hmode hj (by simp)] at g4
    have := congrFun U c
    beta_reduce at this
    rw [this]
    split <;> cases c <;> simp at hc <;> simp [mixF, g1, g2, g3, g4]
  have z1 := z .rsc (by simp); have z2 := z .zcc (by simp); have z3 := z .rcs (by simp); have z4 := z .zss (by simp)
  by_cases em : m = 0
  · subst em
    simp only [if_true] at h4
    rw [abs_of_nonneg h4] at *
    simp [asymModes, z2, z3]
  · simp [asymModes, em, z1, z2, z3, z4]

/-- a run meeting the hypotheses: the second of two threads, three-dimensional, with the boundary -/
example : ∃ x : Ctx, 2 ≤ x.mpol ∧ 0 < x.ntor ∧ 0 < x.nsMin ∧ x.nsMin < x.nsMax ∧ x.nsMax ≤ x.ns ∧ x.nsMaxF1 = x.ns ∧
    validMode x.mpol x.ntor 1 (-1) ∧ checkInitialState ⟨true, x.mpol, x.ntor, [5, 11], 5⟩ ⟨true, x.mpol, x.ntor, [11, 21], 5⟩ = .ok () :=
  ⟨⟨3, 1, true, 5, 11, 11, 4, 11⟩, by decide, by decide, by decide, by decide, by decide, by decide,
    ⟨by decide, by decide, by decide, by decide⟩, by decide⟩

end Verif.HotRestart
