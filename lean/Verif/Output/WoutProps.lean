import Verif.Output.Wout
import Verif.Fourier.Props
import Verif.Radial.Apply

/-! # The output coefficients describe the surfaces of the internal coefficients (C84) -/
namespace Verif.Output
open Verif Verif.Fourier Verif.Radial Finset

/-! ## Combined and product form, in terms of the coefficients of each mode -/

section tables
variable {M N nfp : Int} {xm xn : Int → Int}

theorem tab_eq (hM : 1 ≤ M) (hN : 0 ≤ N) (ht : computeConversionIndices N M nfp = .ok (xm, xn)) (m n : Int) (hv : validMode M N m n) :
    xm (idx N m n) = m ∧ xn (idx N m n) = n * nfp := by
  obtain ⟨xm', xn', t1, t2, _⟩ := C09_mode_table M N nfp hM hN
  rw [ht, Outcome.ok.injEq, Prod.mk.injEq] at t1
  obtain ⟨rfl, rfl⟩ := t1
  obtain ⟨i, e, _, _, x1, x2⟩ := t2 m n hv
  have hnn : m = 0 → 0 ≤ n := by
    obtain ⟨_, _, _, v4⟩ := hv
    rintro rfl; simpa using v4
  rw [mnIdx_eq hnn, Outcome.ok.injEq] at e
  rw [e]; exact ⟨x1, x2⟩

theorem same_cos (hM : 1 ≤ M) (hN : 0 ≤ N) (ht : computeConversionIndices N M nfp = .ok (xm, xn)) (fc : Int → ℝ) (cc ss : Int → Int → ℝ)
    (h0 : ∀ n, 0 ≤ n → n ≤ N → fc (idx N 0 n) = scale 0 * scale n * cc 0 n)
    (h1 : ∀ m, 1 ≤ m → m < M → fc (idx N m 0) = scale m * scale 0 * cc m 0)
    (h2 : ∀ m n, 1 ≤ m → m < M → 1 ≤ n → n ≤ N → fc (idx N m n) = scale m * scale n * (cc m n + ss m n) / 2 ∧
      fc (idx N m (-n)) = scale m * scale n * (cc m n - ss m n) / 2) (θ φ : ℝ) :
    combinedCos (mnMax M N) xm xn fc θ φ = productCos M N cc ss θ (nfp * φ) := by
  have tx := tab_eq hM hN ht
  unfold combinedCos productCos
  rw [sum_modes M N hM hN, sum_Ico_int_first (show (0:Int) < M by omega), zero_add]
  congr 1
  · refine Finset.sum_congr rfl fun n hn => ?_
    rw [Finset.mem_Ico] at hn
    obtain ⟨x1, x2⟩ := tx 0 n ⟨le_refl _, by omega, by omega, by simp; omega⟩
    rw [h0 n hn.1 (by omega), x1, x2]
    push_cast
    rw [zero_mul, zero_sub, Real.cos_neg, Real.cos_zero, Real.sin_zero, mul_assoc (n:ℝ) (nfp:ℝ) φ]
    ring
  · refine Finset.sum_congr rfl fun m hm => ?_
    rw [Finset.mem_Ico] at hm
    rw [sum_pm N hN, sum_Ico_int_first (show (0:Int) < N + 1 by omega), zero_add]
    congr 1
    · obtain ⟨x1, x2⟩ := tx m 0 ⟨by omega, by omega, by omega, by rw [if_neg (by omega)]; omega⟩
      rw [h1 m hm.1 hm.2, x1, x2]
      push_cast
      simp only [zero_mul, Real.cos_zero, sub_zero, Real.sin_zero]
      ring
    · refine Finset.sum_congr rfl fun n hn => ?_
      rw [Finset.mem_Ico] at hn
      obtain ⟨x1, x2⟩ := tx m n ⟨by omega, by omega, by omega, by rw [if_neg (by omega)]; omega⟩
      obtain ⟨y1, y2⟩ := tx m (-n) ⟨by omega, by omega, by omega, by rw [if_neg (by omega)]; omega⟩
      rw [(h2 m n hm.1 hm.2 hn.1 (by omega)).1, (h2 m n hm.1 hm.2 hn.1 (by omega)).2, x1, x2, y1, y2]
      have ea : (m:ℝ) * θ - ((n * nfp : Int) : ℝ) * φ = m * θ - n * (nfp * φ) := by push_cast; ring
      have eb : (m:ℝ) * θ - ((-n * nfp : Int) : ℝ) * φ = m * θ + n * (nfp * φ) := by push_cast; ring
      rw [ea, eb, Real.cos_sub, Real.cos_add]
      ring

theorem same_sin (hM : 1 ≤ M) (hN : 0 ≤ N) (ht : computeConversionIndices N M nfp = .ok (xm, xn)) (fs : Int → ℝ) (sc cs : Int → Int → ℝ)
    (h0 : ∀ n, 0 ≤ n → n ≤ N → n ≠ 0 → fs (idx N 0 n) = -(scale 0 * scale n * cs 0 n))
    (h1 : ∀ m, 1 ≤ m → m < M → fs (idx N m 0) = scale m * scale 0 * sc m 0)
    (h2 : ∀ m n, 1 ≤ m → m < M → 1 ≤ n → n ≤ N → fs (idx N m n) = scale m * scale n * (sc m n - cs m n) / 2 ∧
      fs (idx N m (-n)) = scale m * scale n * (sc m n + cs m n) / 2) (θ φ : ℝ) :
    combinedSin (mnMax M N) xm xn fs θ φ = productSin M N sc cs θ (nfp * φ) := by
  have tx := tab_eq hM hN ht
  unfold combinedSin productSin
  rw [sum_modes M N hM hN, sum_Ico_int_first (show (0:Int) < M by omega), zero_add]
  congr 1
  · refine Finset.sum_congr rfl fun n hn => ?_
    rw [Finset.mem_Ico] at hn
    obtain ⟨x1, x2⟩ := tx 0 n ⟨le_refl _, by omega, by omega, by simp; omega⟩
    rw [x1, x2]
    by_cases hn0 : n = 0
    · subst hn0; simp
    · rw [h0 n hn.1 (by omega) hn0]
      push_cast
      simp only [zero_mul, zero_sub, Real.sin_neg, Real.cos_zero, Real.sin_zero, mul_assoc (n:ℝ) (nfp:ℝ) φ]
      ring
  · refine Finset.sum_congr rfl fun m hm => ?_
    rw [Finset.mem_Ico] at hm
    rw [sum_pm N hN, sum_Ico_int_first (show (0:Int) < N + 1 by omega), zero_add]
    congr 1
    · obtain ⟨x1, x2⟩ := tx m 0 ⟨by omega, by omega, by omega, by rw [if_neg (by omega)]; omega⟩
      rw [h1 m hm.1 hm.2, x1, x2]
      push_cast
      simp only [zero_mul, Real.cos_zero, sub_zero, Real.sin_zero]
      ring
    · refine Finset.sum_congr rfl fun n hn => ?_
      rw [Finset.mem_Ico] at hn
      obtain ⟨x1, x2⟩ := tx m n ⟨by omega, by omega, by omega, by rw [if_neg (by omega)]; omega⟩
      obtain ⟨y1, y2⟩ := tx m (-n) ⟨by omega, by omega, by omega, by rw [if_neg (by omega)]; omega⟩
      rw [(h2 m n hm.1 hm.2 hn.1 (by omega)).1, (h2 m n hm.1 hm.2 hn.1 (by omega)).2, x1, x2, y1, y2]
      have ea : (m:ℝ) * θ - ((n * nfp : Int) : ℝ) * φ = m * θ - n * (nfp * φ) := by push_cast; ring
      have eb : (m:ℝ) * θ - ((-n * nfp : Int) : ℝ) * φ = m * θ + n * (nfp * φ) := by push_cast; ring
      rw [ea, eb, Real.sin_sub, Real.sin_add]
      ring

end tables

/-! ## The conversion of the `m = 1` modes -/

theorem cIdx_inj {s : Sizes.Sizes} {j n m j' n' m' : Int} (hm : 0 ≤ m) (hm1 : m < s.mpol) (hm' : 0 ≤ m') (hm1' : m' < s.mpol)
    (hn : 0 ≤ n) (hn1 : n ≤ s.ntor) (hn' : 0 ≤ n') (hn1' : n' ≤ s.ntor) (h : cIdx s j n m = cIdx s j' n' m') : j = j' ∧ n = n' ∧ m = m' := by
  unfold cIdx at h
  obtain ⟨h1, h2⟩ := Verif.flat_inj hm hm1 hm' hm1' h
  obtain ⟨h3, h4⟩ := Verif.flat_inj hn (by omega) hn' (by omega) h1
  exact ⟨h3, h4, h2⟩

theorem convertM1_eq (s : Sizes.Sizes) (ns : Int) (hmp : 2 ≤ s.mpol) (a b : Coef) (hab : a ≠ b) (x : Coef → Int → ℝ) (c : Coef) (j n m : Int)
    (j0 : 0 ≤ j) (j1 : j < ns) (n0 : 0 ≤ n) (n1 : n ≤ s.ntor) (m0 : 0 ≤ m) (m1 : m < s.mpol) :
    convertM1 s ns a b x c (cIdx s j n m) = if m = 1 ∧ c = a then x a (cIdx s j n m) + x b (cIdx s j n m)
      else if m = 1 ∧ c = b then x a (cIdx s j n m) - x b (cIdx s j n m) else x c (cIdx s j n m) := by
  let w : (Coef → ℝ) → Coef → ℝ := fun v c => if m = 1 ∧ c = a then v a + v b else if m = 1 ∧ c = b then v a - v b else v c
  have body (j' n' : Int) (x : Coef → Int → ℝ) (k0 : 0 ≤ n') (k1 : n' < s.ntor + 1) :
      (fun c => (put (put x a (cIdx s j' n' 1) (x a (cIdx s j' n' 1) + x b (cIdx s j' n' 1))) b (cIdx s j' n' 1)
        (x a (cIdx s j' n' 1) - put x a (cIdx s j' n' 1) (x a (cIdx s j' n' 1) + x b (cIdx s j' n' 1)) b (cIdx s j' n' 1))) c (cIdx s j n m))
      = if j' = j ∧ n' = n then w (fun c => x c (cIdx s j n m)) else fun c => x c (cIdx s j n m) := by
    funext c
    have hb : put x a (cIdx s j' n' 1) (x a (cIdx s j' n' 1) + x b (cIdx s j' n' 1)) b (cIdx s j' n' 1) = x b (cIdx s j' n' 1) := by
      rw [put_apply, if_neg (fun e => hab e.1.symm)]
    rw [hb, put_apply, put_apply]
    by_cases e : cIdx s j n m = cIdx s j' n' 1
    · obtain ⟨e1, e2, e3⟩ := cIdx_inj m0 m1 (by omega) (by omega) n0 n1 k0 (by omega) e
      subst e1; subst e2; subst e3
      by_cases ca : c = a
      · subst ca
        simp [w, hab]
      · by_cases cb : c = b
        · subst cb; simp [w, ca]
        · simp [w, ca, cb]
    · rw [if_neg (fun h => e h.2), if_neg (fun h => e h.2)]
      by_cases h : j' = j ∧ n' = n
      · obtain ⟨rfl, rfl⟩ := h
        have : m ≠ 1 := fun h => e (by rw [h])
        simp [w, this]
      · rw [if_neg h]
  have inner (j' : Int) (x : Coef → Int → ℝ) := pickLoop (fun (x : Coef → Int → ℝ) c => x c (cIdx s j n m)) (fun n' x =>
      put (put x a (cIdx s j' n' 1) (x a (cIdx s j' n' 1) + x b (cIdx s j' n' 1))) b (cIdx s j' n' 1)
        (x a (cIdx s j' n' 1) - put x a (cIdx s j' n' 1) (x a (cIdx s j' n' 1) + x b (cIdx s j' n' 1)) b (cIdx s j' n' 1)))
    (lo := 0) (hi := s.ntor + 1) (i0 := n) (fun v => if j' = j then w v else v)
    (by intro i x k0 k1 hne; exact (body j' i x k0 k1).trans (if_neg (fun e => hne e.2)))
    (by intro x k0 k1; exact (body j' n x k0 k1).trans (if_congr (by simp) rfl rfl)) x
  have outer := pickLoop (fun (x : Coef → Int → ℝ) c => x c (cIdx s j n m)) (fun j' x => forRange 0 (s.ntor + 1) (fun n' x =>
      put (put x a (cIdx s j' n' 1) (x a (cIdx s j' n' 1) + x b (cIdx s j' n' 1))) b (cIdx s j' n' 1)
        (x a (cIdx s j' n' 1) - put x a (cIdx s j' n' 1) (x a (cIdx s j' n' 1) + x b (cIdx s j' n' 1)) b (cIdx s j' n' 1))) x)
    (lo := 0) (hi := ns) (i0 := j) w
    (by intro i x _ _ hne; exact (inner i x).trans (by rw [if_pos ⟨n0, by omega⟩, if_neg hne]))
    (by intro x _ _; exact (inner j x).trans (by rw [if_pos ⟨n0, by omega⟩, if_pos rfl])) x
  rw [if_pos ⟨j0, j1⟩] at outer
  exact congrFun outer c

/-! ## Specification -/

/-- the coefficients of a surface in physical form: for `m = 1` the internal pairs `(rss, zcs)` and `(rsc, zcc)` are
    half sum and half difference -/
noncomputable def phys (s : Sizes.Sizes) (x : Coef → Int → ℝ) (c : Coef) (j m n : Int) : ℝ :=
  let v := fun c => x c ((j * (s.ntor + 1) + n) * s.mpol + m)
  if m = 1 then
    match c with
    | .rmnss => if s.lthreed then v .rmnss + v .zmncs else v .rmnss
    | .zmncs => if s.lthreed then v .rmnss - v .zmncs else v .zmncs
    | .rmnsc => if s.lasym then v .rmnsc + v .zmncc else v .rmnsc
    | .zmncc => if s.lasym then v .rmnsc - v .zmncc else v .zmncc
    | c => v c
  else v c

theorem convert_eq (s : Sizes.Sizes) (ns : Int) (hmp : 2 ≤ s.mpol) (x : Coef → Int → ℝ) (c : Coef) (j n m : Int)
    (j0 : 0 ≤ j) (j1 : j < ns) (n0 : 0 ≤ n) (n1 : n ≤ s.ntor) (m0 : 0 ≤ m) (m1 : m < s.mpol) :
    convert s ns x c (cIdx s j n m) = phys s x c j m n := by
  have e1 (x : Coef → Int → ℝ) (c : Coef) := convertM1_eq s ns hmp .rmnss .zmncs (by decide) x c j n m j0 j1 n0 n1 m0 m1
  have e2 (x : Coef → Int → ℝ) (c : Coef) := convertM1_eq s ns hmp .rmnsc .zmncc (by decide) x c j n m j0 j1 n0 n1 m0 m1
  unfold convert phys
  have hi : (j * (s.ntor + 1) + n) * s.mpol + m = cIdx s j n m := rfl
  rw [hi]
  by_cases hm : m = 1
  · subst hm
    cases h1 : s.lthreed <;> cases h2 : s.lasym <;> cases c <;> simp [e1, e2, h1, h2]
  · cases h1 : s.lthreed <;> cases h2 : s.lasym <;> simp [e1, e2, hm, h1, h2]

/-! ## The coefficients of one surface -/

section surface
variable (s : Sizes.Sizes) (hM : 1 ≤ s.mpol) (hN : 0 ≤ s.ntor) (hmn : s.mnmax = mnMax s.mpol s.ntor) (ms ns : Int → ℝ) (x : Coef → Int → ℝ) (j : Int)
include hM hN hmn

theorem sym_eq : ∃ f, symSurface s ms ns x j = .ok f ∧
    (∀ n, 0 ≤ n → n ≤ s.ntor → (f (idx s.ntor 0 n)).r = ms 0 * ns n * x .rmncc (cIdx s j n 0) ∧
      (f (idx s.ntor 0 n)).z = (if s.lthreed then -(ms 0 * ns n) * x .zmncs (cIdx s j n 0) else 0) ∧
      (f (idx s.ntor 0 n)).l = (if s.lthreed then (if j = 0 then -(ms 0 * ns n) * (2 * x .lmncs (cIdx s 1 n 0) - x .lmncs (cIdx s 2 n 0)) else -(ms 0 * ns n) * x .lmncs (cIdx s j n 0)) else 0)) ∧
    (∀ m n, 1 ≤ m → m < s.mpol → -s.ntor ≤ n → n ≤ s.ntor → f (idx s.ntor m n) =
      (if n = 0 then { r := ms m * ns |n| * x .rmncc (cIdx s j |n| m), z := ms m * ns |n| * x .zmnsc (cIdx s j |n| m), l := ms m * ns |n| * x .lmnsc (cIdx s j |n| m) }
       else if j > 0 then
        { r := ms m * ns |n| * x .rmncc (cIdx s j |n| m) / 2 + if s.lthreed then ms m * ns |n| * (n.sign : ℝ) * x .rmnss (cIdx s j |n| m) / 2 else 0, z := ms m * ns |n| * x .zmnsc (cIdx s j |n| m) / 2 - if s.lthreed then ms m * ns |n| * (n.sign : ℝ) * x .zmncs (cIdx s j |n| m) / 2 else 0, l := ms m * ns |n| * x .lmnsc (cIdx s j |n| m) / 2 - if s.lthreed then ms m * ns |n| * (n.sign : ℝ) * x .lmncs (cIdx s j |n| m) / 2 else 0 }
       else ⟨0, 0, 0⟩)) := by
  obtain ⟨a1, -, a3⟩ := assign_first s.ntor 0 (by omega) (fun n => ({ r := ms 0 * ns n * x .rmncc (cIdx s j n 0), z := if s.lthreed then -(ms 0 * ns n) * x .zmncs (cIdx s j n 0) else 0, l := if s.lthreed then -(ms 0 * ns n) * x .lmncs (cIdx s j n 0) else 0 } : RZL)) ((0 : Int), fun _ => (⟨0, 0, 0⟩ : RZL)) rfl
  set st := forRange 0 (s.ntor + 1) (fun n (st : Int × (Int → RZL)) => (st.1 + 1, upd st.2 st.1
      ({ r := ms 0 * ns n * x .rmncc (cIdx s j n 0), z := if s.lthreed then -(ms 0 * ns n) * x .zmncs (cIdx s j n 0) else 0, l := if s.lthreed then -(ms 0 * ns n) * x .lmncs (cIdx s j n 0) else 0 } : RZL))) ((0 : Int), fun _ => (⟨0, 0, 0⟩ : RZL)) with hst
  -- the extrapolation of lambda
  have ext : ∀ n, 0 ≤ n → n ≤ s.ntor → (forRange 0 (s.ntor + 1) (fun n (q : Int × (Int → RZL)) =>
        (q.1 + 1, upd q.2 q.1 { q.2 q.1 with l := -(ms 0 * ns n) * (2 * x .lmncs (cIdx s 1 n 0) - x .lmncs (cIdx s 2 n 0)) })) ((0 : Int), st.2)).2 n
        = { st.2 n with l := -(ms 0 * ns n) * (2 * x .lmncs (cIdx s 1 n 0) - x .lmncs (cIdx s 2 n 0)) } := by
    have key := forRange_inv (by omega : 0 ≤ s.ntor + 1) (fun n (q : Int × (Int → RZL)) =>
        (q.1 + 1, upd q.2 q.1 { q.2 q.1 with l := -(ms 0 * ns n) * (2 * x .lmncs (cIdx s 1 n 0) - x .lmncs (cIdx s 2 n 0)) })) ((0 : Int), st.2)
      (fun k q => q.1 = k ∧ (∀ i, k ≤ i → q.2 i = st.2 i) ∧ ∀ n, 0 ≤ n → n < k → q.2 n = { st.2 n with l := -(ms 0 * ns n) * (2 * x .lmncs (cIdx s 1 n 0) - x .lmncs (cIdx s 2 n 0)) })
      ⟨rfl, fun _ _ => rfl, by intro n _ _; omega⟩ (by
        rintro k q k0 k1 ⟨q1, q2, q3⟩
        refine ⟨by simp [q1], ?_, ?_⟩
        · intro i hi; simp only; rw [upd_ne _ _ (by omega), q2 i (by omega)]
        · intro n hn hn'
          simp only
          by_cases e : n = k
          · subst e; rw [q1, upd_same, q2 n le_rfl]
          · rw [upd_ne _ _ (by omega), q3 n hn (by omega)])
    intro n h0 h1
    exact key.2.2 n h0 (by omega)
  set a := (if s.lthreed ∧ j = 0 then
      (forRange 0 (s.ntor + 1) (fun n (q : Int × (Int → RZL)) =>
        (q.1 + 1, upd q.2 q.1 { q.2 q.1 with l := -(ms 0 * ns n) * (2 * x .lmncs (cIdx s 1 n 0) - x .lmncs (cIdx s 2 n 0)) })) ((0 : Int), st.2)).2
    else st.2) with ha
  obtain ⟨b1, b2, b3⟩ := assign_rows s.mpol s.ntor hM hN (fun m n => (if n = 0 then { r := ms m * ns |n| * x .rmncc (cIdx s j |n| m), z := ms m * ns |n| * x .zmnsc (cIdx s j |n| m), l := ms m * ns |n| * x .lmnsc (cIdx s j |n| m) }
       else if j > 0 then
        { r := ms m * ns |n| * x .rmncc (cIdx s j |n| m) / 2 + if s.lthreed then ms m * ns |n| * (n.sign : ℝ) * x .rmnss (cIdx s j |n| m) / 2 else 0, z := ms m * ns |n| * x .zmnsc (cIdx s j |n| m) / 2 - if s.lthreed then ms m * ns |n| * (n.sign : ℝ) * x .zmncs (cIdx s j |n| m) / 2 else 0, l := ms m * ns |n| * x .lmnsc (cIdx s j |n| m) / 2 - if s.lthreed then ms m * ns |n| * (n.sign : ℝ) * x .lmncs (cIdx s j |n| m) / 2 else 0 }
       else ⟨0, 0, 0⟩ : RZL)) (st.1, a) a1
  refine ⟨_, if_pos (b1.trans hmn.symm), ?_, b3⟩
  intro n n0 n1
  rw [idx_zero]
  have hv := b2 n (by omega)
  rw [hv]
  have hs := a3 n n0 n1
  dsimp only
  rw [ha]
  by_cases hl : s.lthreed = true
  · by_cases hj : j = 0
    · rw [if_pos ⟨hl, hj⟩, ext n n0 n1, hs]
      simp [hl, hj]
    · rw [if_neg (fun e => hj e.2), hs]
      simp [hl, hj]
  · rw [if_neg (fun e => hl e.1), hs]
    simp [hl]

theorem asym_eq : ∃ f, asymSurface s ms ns x j = .ok f ∧
    (∀ n, 0 ≤ n → n ≤ s.ntor → f (idx s.ntor 0 n) = { r := if s.lthreed then -(ms 0 * ns n) * x .rmncs (cIdx s j n 0) else 0, z := ms 0 * ns n * x .zmncc (cIdx s j n 0), l := ms 0 * ns n * x .lmncc (cIdx s j n 0) }) ∧
    (∀ m n, 1 ≤ m → m < s.mpol → -s.ntor ≤ n → n ≤ s.ntor → f (idx s.ntor m n) =
      (if n = 0 then { r := ms m * ns |n| * x .rmnsc (cIdx s j |n| m), z := ms m * ns |n| * x .zmncc (cIdx s j |n| m), l := ms m * ns |n| * x .lmncc (cIdx s j |n| m) }
       else if j > 0 then
        { r := ms m * ns |n| * x .rmnsc (cIdx s j |n| m) / 2 - if s.lthreed then ms m * ns |n| * (n.sign : ℝ) * x .rmncs (cIdx s j |n| m) / 2 else 0, z := ms m * ns |n| * x .zmncc (cIdx s j |n| m) / 2 + if s.lthreed then ms m * ns |n| * (n.sign : ℝ) * x .zmnss (cIdx s j |n| m) / 2 else 0, l := ms m * ns |n| * x .lmncc (cIdx s j |n| m) / 2 + if s.lthreed then ms m * ns |n| * (n.sign : ℝ) * x .lmnss (cIdx s j |n| m) / 2 else 0 }
       else ⟨0, 0, 0⟩)) := by
  obtain ⟨a1, -, a3⟩ := assign_first s.ntor 0 (by omega) (fun n => ({ r := if s.lthreed then -(ms 0 * ns n) * x .rmncs (cIdx s j n 0) else 0, z := ms 0 * ns n * x .zmncc (cIdx s j n 0), l := ms 0 * ns n * x .lmncc (cIdx s j n 0) } : RZL))
    ((0 : Int), fun _ => (⟨0, 0, 0⟩ : RZL)) rfl
  obtain ⟨b1, b2, b3⟩ := assign_rows s.mpol s.ntor hM hN (fun m n => (if n = 0 then { r := ms m * ns |n| * x .rmnsc (cIdx s j |n| m), z := ms m * ns |n| * x .zmncc (cIdx s j |n| m), l := ms m * ns |n| * x .lmncc (cIdx s j |n| m) }
       else if j > 0 then
        { r := ms m * ns |n| * x .rmnsc (cIdx s j |n| m) / 2 - if s.lthreed then ms m * ns |n| * (n.sign : ℝ) * x .rmncs (cIdx s j |n| m) / 2 else 0, z := ms m * ns |n| * x .zmncc (cIdx s j |n| m) / 2 + if s.lthreed then ms m * ns |n| * (n.sign : ℝ) * x .zmnss (cIdx s j |n| m) / 2 else 0, l := ms m * ns |n| * x .lmncc (cIdx s j |n| m) / 2 + if s.lthreed then ms m * ns |n| * (n.sign : ℝ) * x .lmnss (cIdx s j |n| m) / 2 else 0 }
       else ⟨0, 0, 0⟩ : RZL)) _ a1
  refine ⟨_, if_pos (b1.trans hmn.symm), ?_, b3⟩
  intro n n0 n1
  rw [idx_zero]
  exact (b2 n (by omega)).trans (a3 n n0 n1)

end surface

/-! ## C84 -/

/-- hypotheses on a run: sizes as built, table of the modes, `ns` surfaces -/
structure Run (s : Sizes.Sizes) (ns : Int) (xm xn : Int → Int) : Prop where
  sizes : ∃ lasym nfp mpol ntor ntheta nzeta mg ng, Sizes.mk lasym nfp mpol ntor ntheta nzeta mg ng = .ok s
  table : computeConversionIndices s.ntor s.mpol s.nfp = .ok (xm, xn)
  mpol : 2 ≤ s.mpol

namespace Run
variable {s : Sizes.Sizes} {ns : Int} {xm xn : Int → Int}
theorem ntor (r : Run s ns xm xn) : 0 ≤ s.ntor := by
  obtain ⟨la, nf, mp, nt, nth, nz, mg, ng, hs⟩ := r.sizes
  obtain ⟨h, h'⟩ := Sizes.C07_sizes la nf mp nt nth nz mg ng
  have := (h.2 ⟨s, hs⟩).2.2
  rw [(h' s hs).1.2.2.2]; exact this
theorem mnmax (r : Run s ns xm xn) : s.mnmax = mnMax s.mpol s.ntor := by
  obtain ⟨la, nf, mp, nt, nth, nz, mg, ng, hs⟩ := r.sizes
  exact (C09_table_sizes la nf mp nt nth nz mg ng s hs).1
theorem lthreed (r : Run s ns xm xn) : s.lthreed = true ↔ 0 < s.ntor := by
  obtain ⟨la, nf, mp, nt, nth, nz, mg, ng, hs⟩ := r.sizes
  unfold Sizes.mk at hs
  split at hs
  · cases hs
  split at hs
  · cases hs
  split at hs
  · cases hs
  cases hs
  simp
end Run

/-- **C84** (stellarator-symmetric part): on every surface outside the axis the coefficients written to the output file,
    summed with the mode numbers of the output file, give the same `R`, `Z` as the internal coefficients summed with the
    internal basis, and `λ` rescaled by `lamscale / phi'`.  On the axis the same holds for `R`, `Z` when the internal
    coefficients with `m ≥ 1`, `n ≥ 1` vanish there. -/
theorem C84_geometry {s : Sizes.Sizes} {ns : Int} {xm xn : Int → Int} (r : Run s ns xm xn) (x : Coef → Int → ℝ) (j : Int) (j0 : 0 ≤ j) (j1 : j < ns)
    (hax : j = 0 → ∀ c m n, 1 ≤ m → m < s.mpol → 1 ≤ n → n ≤ s.ntor → phys s x c j m n = 0) (lamscale : ℝ) (phipF : Int → ℝ) :
    ∃ f, symSurface s scale scale (convert s ns x) j = .ok f ∧ ∀ θ φ : ℝ,
      combinedCos s.mnmax xm xn (fun i => (f i).r) θ φ = productCos s.mpol s.ntor (phys s x .rmncc j) (phys s x .rmnss j) θ (s.nfp * φ) ∧
      combinedSin s.mnmax xm xn (fun i => (f i).z) θ φ = productSin s.mpol s.ntor (phys s x .zmnsc j) (phys s x .zmncs j) θ (s.nfp * φ) ∧
      (0 < j → combinedSin s.mnmax xm xn (fun i => lambdaFull lamscale phipF j (f i).l) θ φ =
        lamscale / phipF j * productSin s.mpol s.ntor (phys s x .lmnsc j) (phys s x .lmncs j) θ (s.nfp * φ)) := by
  have hM : 1 ≤ s.mpol := by have := r.mpol; omega
  obtain ⟨f, h1, h2, h3⟩ := sym_eq s hM r.ntor r.mnmax scale scale (convert s ns x) j
  have cv (c : Coef) (n m : Int) := convert_eq s ns r.mpol x c j n m j0 j1
  have hl := r.lthreed
  refine ⟨f, h1, fun θ φ => ?_⟩
  rw [r.mnmax]
  refine ⟨?_, ?_, ?_⟩
  · refine same_cos hM r.ntor r.table _ _ _ ?_ ?_ ?_ θ φ
    · intro n n0 n1
      rw [(h2 n n0 n1).1, cv _ _ _ n0 n1 le_rfl (by omega)]
    · intro m m0 m1
      rw [h3 m 0 m0 m1 (by have := r.ntor; omega) r.ntor, if_pos rfl]
      simp only [abs_zero]
      rw [cv _ _ _ le_rfl r.ntor (by omega) m1]
    · intro m n m0 m1 n0 n1
      rw [h3 m n m0 m1 (by omega) n1, h3 m (-n) m0 m1 (by omega) (by omega), if_neg (by omega : ¬ n = 0), if_neg (by omega : ¬ -n = 0), abs_neg, abs_of_nonneg (by omega : 0 ≤ n),
        Int.sign_neg, Int.sign_eq_one_of_pos (by omega)]
      by_cases hj : j > 0
      · simp only [if_pos hj, if_pos (hl.2 (by omega))]
        rw [cv _ _ _ (by omega) n1 (by omega) m1, cv _ _ _ (by omega) n1 (by omega) m1]
        push_cast
        constructor <;> ring
      · simp only [if_neg hj]
        rw [hax (by omega) _ _ _ m0 m1 n0 n1, hax (by omega) _ _ _ m0 m1 n0 n1]
        constructor <;> ring
  · refine same_sin hM r.ntor r.table _ _ _ ?_ ?_ ?_ θ φ
    · intro n n0 n1 hn
      rw [(h2 n n0 n1).2.1, if_pos (hl.2 (by omega)), cv _ _ _ n0 n1 le_rfl (by omega)]
      ring
    · intro m m0 m1
      rw [h3 m 0 m0 m1 (by have := r.ntor; omega) r.ntor, if_pos rfl]
      simp only [abs_zero]
      rw [cv _ _ _ le_rfl r.ntor (by omega) m1]
    · intro m n m0 m1 n0 n1
      rw [h3 m n m0 m1 (by omega) n1, h3 m (-n) m0 m1 (by omega) (by omega), if_neg (by omega : ¬ n = 0), if_neg (by omega : ¬ -n = 0), abs_neg, abs_of_nonneg (by omega : 0 ≤ n),
        Int.sign_neg, Int.sign_eq_one_of_pos (by omega)]
      by_cases hj : j > 0
      · simp only [if_pos hj, if_pos (hl.2 (by omega))]
        rw [cv _ _ _ (by omega) n1 (by omega) m1, cv _ _ _ (by omega) n1 (by omega) m1]
        push_cast
        constructor <;> ring
      · simp only [if_neg hj]
        rw [hax (by omega) _ _ _ m0 m1 n0 n1, hax (by omega) _ _ _ m0 m1 n0 n1]
        constructor <;> ring
  · intro hj
    have e : combinedSin (mnMax s.mpol s.ntor) xm xn (fun i => lambdaFull lamscale phipF j (f i).l) θ φ
        = lamscale / phipF j * combinedSin (mnMax s.mpol s.ntor) xm xn (fun i => (f i).l) θ φ := by
      unfold combinedSin lambdaFull
      rw [Finset.mul_sum]
      exact Finset.sum_congr rfl fun i _ => by ring
    rw [e]
    congr 1
    refine same_sin hM r.ntor r.table _ _ _ ?_ ?_ ?_ θ φ
    · intro n n0 n1 hn
      rw [(h2 n n0 n1).2.2, if_pos (hl.2 (by omega)), if_neg (by omega), cv _ _ _ n0 n1 le_rfl (by omega)]
      ring
    · intro m m0 m1
      rw [h3 m 0 m0 m1 (by have := r.ntor; omega) r.ntor, if_pos rfl]
      simp only [abs_zero]
      rw [cv _ _ _ le_rfl r.ntor (by omega) m1]
    · intro m n m0 m1 n0 n1
      rw [h3 m n m0 m1 (by omega) n1, h3 m (-n) m0 m1 (by omega) (by omega), if_neg (by omega : ¬ n = 0), if_neg (by omega : ¬ -n = 0), abs_neg, abs_of_nonneg (by omega : 0 ≤ n),
        Int.sign_neg, Int.sign_eq_one_of_pos (by omega)]
      simp only [if_pos hj, if_pos (hl.2 (by omega))]
      rw [cv _ _ _ (by omega) n1 (by omega) m1, cv _ _ _ (by omega) n1 (by omega) m1]
      push_cast
      constructor <;> ring

/-- **C84** (part that breaks stellarator symmetry, written with `lasym`) -/
theorem C84_geometry_asym {s : Sizes.Sizes} {ns : Int} {xm xn : Int → Int} (r : Run s ns xm xn) (x : Coef → Int → ℝ) (j : Int) (j0 : 0 ≤ j) (j1 : j < ns)
    (hax : j = 0 → ∀ c m n, 1 ≤ m → m < s.mpol → 1 ≤ n → n ≤ s.ntor → phys s x c j m n = 0) (lamscale : ℝ) (phipF : Int → ℝ) :
    ∃ f, asymSurface s scale scale (convert s ns x) j = .ok f ∧ ∀ θ φ : ℝ,
      combinedSin s.mnmax xm xn (fun i => (f i).r) θ φ = productSin s.mpol s.ntor (phys s x .rmnsc j) (phys s x .rmncs j) θ (s.nfp * φ) ∧
      combinedCos s.mnmax xm xn (fun i => (f i).z) θ φ = productCos s.mpol s.ntor (phys s x .zmncc j) (phys s x .zmnss j) θ (s.nfp * φ) ∧
      combinedCos s.mnmax xm xn (fun i => lambdaFull lamscale phipF j (f i).l) θ φ =
        lamscale / phipF j * productCos s.mpol s.ntor (phys s x .lmncc j) (phys s x .lmnss j) θ (s.nfp * φ) := by
  have hM : 1 ≤ s.mpol := by have := r.mpol; omega
  obtain ⟨f, h1, h2, h3⟩ := asym_eq s hM r.ntor r.mnmax scale scale (convert s ns x) j
  have cv (c : Coef) (n m : Int) := convert_eq s ns r.mpol x c j n m j0 j1
  have hl := r.lthreed
  refine ⟨f, h1, fun θ φ => ?_⟩
  rw [r.mnmax]
  refine ⟨?_, ?_, ?_⟩
  · refine same_sin hM r.ntor r.table _ _ _ ?_ ?_ ?_ θ φ
    · intro n n0 n1 hn
      rw [h2 n n0 n1]
      simp only
      rw [if_pos (hl.2 (by omega)), cv _ _ _ n0 n1 le_rfl (by omega)]
      ring
    · intro m m0 m1
      rw [h3 m 0 m0 m1 (by have := r.ntor; omega) r.ntor, if_pos rfl]
      simp only [abs_zero]
      rw [cv _ _ _ le_rfl r.ntor (by omega) m1]
    · intro m n m0 m1 n0 n1
      rw [h3 m n m0 m1 (by omega) n1, h3 m (-n) m0 m1 (by omega) (by omega), if_neg (by omega : ¬ n = 0), if_neg (by omega : ¬ -n = 0), abs_neg, abs_of_nonneg (by omega : 0 ≤ n),
        Int.sign_neg, Int.sign_eq_one_of_pos (by omega)]
      by_cases hj : j > 0
      · simp only [if_pos hj, if_pos (hl.2 (by omega))]
        rw [cv _ _ _ (by omega) n1 (by omega) m1, cv _ _ _ (by omega) n1 (by omega) m1]
        push_cast
        constructor <;> ring
      · simp only [if_neg hj]
        rw [hax (by omega) _ _ _ m0 m1 n0 n1, hax (by omega) _ _ _ m0 m1 n0 n1]
        constructor <;> ring
  · refine same_cos hM r.ntor r.table _ _ _ ?_ ?_ ?_ θ φ
    · intro n n0 n1
      rw [h2 n n0 n1]
      simp only
      rw [cv _ _ _ n0 n1 le_rfl (by omega)]
    · intro m m0 m1
      rw [h3 m 0 m0 m1 (by have := r.ntor; omega) r.ntor, if_pos rfl]
      simp only [abs_zero]
      rw [cv _ _ _ le_rfl r.ntor (by omega) m1]
    · intro m n m0 m1 n0 n1
      rw [h3 m n m0 m1 (by omega) n1, h3 m (-n) m0 m1 (by omega) (by omega), if_neg (by omega : ¬ n = 0), if_neg (by omega : ¬ -n = 0), abs_neg, abs_of_nonneg (by omega : 0 ≤ n),
        Int.sign_neg, Int.sign_eq_one_of_pos (by omega)]
      by_cases hj : j > 0
      · simp only [if_pos hj, if_pos (hl.2 (by omega))]
        rw [cv _ _ _ (by omega) n1 (by omega) m1, cv _ _ _ (by omega) n1 (by omega) m1]
        push_cast
        constructor <;> ring
      · simp only [if_neg hj]
        rw [hax (by omega) _ _ _ m0 m1 n0 n1, hax (by omega) _ _ _ m0 m1 n0 n1]
        constructor <;> ring
  · have e : combinedCos (mnMax s.mpol s.ntor) xm xn (fun i => lambdaFull lamscale phipF j (f i).l) θ φ
        = lamscale / phipF j * combinedCos (mnMax s.mpol s.ntor) xm xn (fun i => (f i).l) θ φ := by
      unfold combinedCos lambdaFull
      rw [Finset.mul_sum]
      exact Finset.sum_congr rfl fun i _ => by ring
    rw [e]
    congr 1
    refine same_cos hM r.ntor r.table _ _ _ ?_ ?_ ?_ θ φ
    · intro n n0 n1
      rw [h2 n n0 n1]
      simp only
      rw [cv _ _ _ n0 n1 le_rfl (by omega)]
    · intro m m0 m1
      rw [h3 m 0 m0 m1 (by have := r.ntor; omega) r.ntor, if_pos rfl]
      simp only [abs_zero]
      rw [cv _ _ _ le_rfl r.ntor (by omega) m1]
    · intro m n m0 m1 n0 n1
      rw [h3 m n m0 m1 (by omega) n1, h3 m (-n) m0 m1 (by omega) (by omega), if_neg (by omega : ¬ n = 0), if_neg (by omega : ¬ -n = 0), abs_neg, abs_of_nonneg (by omega : 0 ≤ n),
        Int.sign_neg, Int.sign_eq_one_of_pos (by omega)]
      by_cases hj : j > 0
      · simp only [if_pos hj, if_pos (hl.2 (by omega))]
        rw [cv _ _ _ (by omega) n1 (by omega) m1, cv _ _ _ (by omega) n1 (by omega) m1]
        push_cast
        constructor <;> ring
      · simp only [if_neg hj]
        rw [hax (by omega) _ _ _ m0 m1 n0 n1, hax (by omega) _ _ _ m0 m1 n0 n1]
        constructor <;> ring

/-- **C84** (axis): the `m = 0` coefficients of `λ` written for the axis continue those of the first two surfaces linearly;
    those with `n ≠ 0` and `m ≥ 1` are zero. -/
theorem C84_axis {s : Sizes.Sizes} {ns : Int} {xm xn : Int → Int} (r : Run s ns xm xn) (h3 : 3 ≤ ns) (x : Coef → Int → ℝ) :
    ∃ f g h, symSurface s scale scale (convert s ns x) 0 = .ok f ∧ symSurface s scale scale (convert s ns x) 1 = .ok g ∧
      symSurface s scale scale (convert s ns x) 2 = .ok h ∧
      (∀ n, 0 ≤ n → n ≤ s.ntor → (f (idx s.ntor 0 n)).l = 2 * (g (idx s.ntor 0 n)).l - (h (idx s.ntor 0 n)).l) ∧
      (∀ m n, 1 ≤ m → m < s.mpol → -s.ntor ≤ n → n ≤ s.ntor → n ≠ 0 → f (idx s.ntor m n) = ⟨0, 0, 0⟩) := by
  have hM : 1 ≤ s.mpol := by have := r.mpol; omega
  obtain ⟨f, f1, f2, f3⟩ := sym_eq s hM r.ntor r.mnmax scale scale (convert s ns x) 0
  obtain ⟨g, g1, g2, -⟩ := sym_eq s hM r.ntor r.mnmax scale scale (convert s ns x) 1
  obtain ⟨h, h1, h2, -⟩ := sym_eq s hM r.ntor r.mnmax scale scale (convert s ns x) 2
  refine ⟨f, g, h, f1, g1, h1, ?_, ?_⟩
  · intro n n0 n1
    rw [(f2 n n0 n1).2.2, (g2 n n0 n1).2.2, (h2 n n0 n1).2.2]
    by_cases hl : s.lthreed = true
    · simp only [hl, if_true]
      norm_num
      ring
    · simp [hl]
  · intro m n m0 m1 n0 n1 hn
    rw [f3 m n m0 m1 n0 n1, if_neg hn, if_neg (by omega)]

/-- value at `σ` of a coefficient that is `√σ` to the parity of `m` times a polynomial of degree one -/
noncomputable def radial (m : Int) (a b σ : ℝ) : ℝ := (if 2 ∣ m then 1 else Real.sqrt σ) * (a + b * σ)

/-- **C84** (half grid): the interpolation of `λ` to the half grid is exact for coefficients of the form
    `a + b s` (even `m`) or `√s (a + b s)` (odd `m`); on the innermost half-grid point with `m ≤ 1`, where the value of the axis
    is replaced, for `b = 0`. -/
theorem C84_lambda_half (sF sH : Int → ℝ) (hF : ∀ j, 1 ≤ j → 0 < sF j) (hH : ∀ j, sH j = (sF j + sF (j + 1)) / 2)
    (xm : Int → Int) (sm sp : Int → ℝ) (hsm : ∀ j, 0 ≤ j → sm j = Real.sqrt (sH j) / Real.sqrt (sF (j + 1)))
    (hsp : ∀ j, 1 ≤ j → sp j = Real.sqrt (sH j) / Real.sqrt (sF j)) (hsp0 : sp 0 = sm 0)
    (full : Int → Int → ℝ) (mn jH : Int) (hj : 0 ≤ jH) (hm : 0 ≤ xm mn) (a b : ℝ)
    (hf : ∀ j, 1 ≤ j → full mn j = radial (xm mn) a b (sF j)) :
    (1 ≤ jH → lambdaHalf xm sm sp full mn jH = radial (xm mn) a b (sH jH)) ∧
    (jH = 0 → xm mn ≤ 1 → b = 0 → lambdaHalf xm sm sp full mn jH = radial (xm mn) a b (sH jH)) := by
  have par : (xm mn).tmod 2 = 0 ↔ 2 ∣ xm mn := by
    rw [Int.tmod_eq_emod_of_nonneg hm]; exact (Int.dvd_iff_emod_eq_zero).symm
  have ho : 0 < sF (jH + 1) := hF _ (by omega)
  have so : Real.sqrt (sF (jH + 1)) ≠ 0 := (Real.sqrt_pos.2 ho).ne'
  unfold lambdaHalf
  simp only [par]
  constructor
  · intro h1
    have si : Real.sqrt (sF jH) ≠ 0 := (Real.sqrt_pos.2 (hF _ h1)).ne'
    rw [if_neg (by omega : ¬ (jH = 0 ∧ xm mn ≤ 1)), hf _ (by omega), hf _ h1]
    by_cases he : 2 ∣ xm mn
    · rw [if_pos he]; simp only [radial, if_pos he]; rw [hH]; ring
    · rw [if_neg he]; simp only [radial, if_neg he]; rw [hsm _ hj, hsp _ h1, div_mul_eq_mul_div, div_mul_eq_mul_div]
      field_simp
      rw [hH]; ring
  · rintro rfl h1 rfl
    rw [if_pos (⟨rfl, h1⟩ : (0:Int) = 0 ∧ xm mn ≤ 1), hf _ (by omega)]
    by_cases he : 2 ∣ xm mn
    · rw [if_pos he]; simp only [radial, if_pos he]; ring
    · rw [if_neg he]; simp only [radial, if_neg he]; rw [hsp0, hsm _ le_rfl]
      field_simp
      ring

/-! ### non-vacuity -/

/-- a three-dimensional run that meets the hypotheses -/
example : ∃ s xm xn, Run s 5 xm xn ∧ s.lthreed = true ∧ s.lasym = true := by
  obtain ⟨xm, xn, h, _⟩ := C09_mode_table 6 4 5 (by decide) (by decide)
  obtain ⟨s, hs⟩ : ∃ s, Sizes.mk true 5 6 4 0 36 0 0 = .ok s := ⟨_, rfl⟩
  refine ⟨s, xm, xn, ⟨⟨_, _, _, _, _, _, _, _, hs⟩, ?_, ?_⟩, ?_, ?_⟩ <;> cases hs
  · exact h
  · decide
  · decide
  · decide

/-- the hypothesis on the axis is met by coefficients that vanish there for `m ≥ 1` only, with three axis harmonics -/
example : ∃ x : Coef → Int → ℝ, ∃ s : Sizes.Sizes, (∀ c m n, 1 ≤ m → m < s.mpol → 1 ≤ n → n ≤ s.ntor → phys s x c 0 m n = 0) ∧
    ∀ n, 0 ≤ n → n < 3 → x .rmncc (cIdx s 0 n 0) ≠ 0 := by
  obtain ⟨s, hs⟩ : ∃ s, Sizes.mk true 5 6 4 0 36 0 0 = .ok s := ⟨_, rfl⟩
  have hp : s.mpol = 6 := by cases hs; rfl
  refine ⟨fun _ i => if i % 6 = 0 then 1 else 0, s, ?_, ?_⟩
  · intro c m n m0 m1 n0 n1
    have : ¬ ((0 * (s.ntor + 1) + n) * s.mpol + m) % 6 = 0 := by rw [hp] at m1 ⊢; omega
    unfold phys
    simp only [this, if_false]
    split
    · cases c <;> simp
    · rfl
  · intro n n0 n1
    have : cIdx s 0 n 0 % 6 = 0 := by unfold cIdx; rw [hp]; omega
    simp [this]

/-- four surfaces with `s = j / 3` -/
example : ∃ sF sH : Int → ℝ, (∀ j, 1 ≤ j → 0 < sF j) ∧ (∀ j, sH j = (sF j + sF (j + 1)) / 2) ∧ sF 0 = 0 ∧ sF 3 = 1 :=
  ⟨fun j => j / 3, fun j => (j / 3 + ((j + 1 : Int) : ℝ) / 3) / 2, fun j h => by
    have : (1 : ℝ) ≤ j := by exact_mod_cast h
    positivity, fun _ => rfl, by norm_num, by norm_num⟩

end Verif.Output
