import Verif.HotRestart.Model
import Verif.Coeffs.Props
import Verif.Fourier.Props

namespace Verif.HotRestart
open Verif Verif.Coeffs Verif.Fourier

theorem forRangeM_ok {S : Type} {lo hi : Int} (f : Int → S → Outcome S) (g : Int → S → S)
    (h : ∀ j s, f j s = .ok (g j s)) (s : S) : forRangeM lo hi f s = .ok (forRange lo hi g s) := by
  unfold forRangeM forRange
  induction irange lo hi generalizing s with
  | nil => rfl
  | cons a l ih =>
    rw [List.foldlM_cons, h, List.foldl_cons]
    exact ih _

/-- overwrite some arrays at one position -/
def setCol (v : F → Option ℝ) (old : F → ℝ) : F → ℝ := fun c => (v c).getD (old c)

noncomputable def rzVals (x : Ctx) (cc ss sc cs : ℝ) : F → Option ℝ
  | .rcc => some cc
  | .zsc => some sc
  | .rss => if x.lthreed then some ss else none
  | .zcs => if x.lthreed then some cs else none
  | _ => none

noncomputable def lVals (x : Ctx) (sc cs : ℝ) : F → Option ℝ
  | .lsc => some sc
  | .lcs => if x.lthreed then some cs else none
  | _ => none

/-- state after the first loop, given the converted coefficients -/
theorem rz_col (x : Ctx) (lo hi : Int) (cc ss sc cs : Int → Int → ℝ) (s : State) (j m n : Int) (h : x.isMode m n) :
    (fun c => forRange lo hi (fun jF s =>
      (forRange 0 x.mpol (fun m s => forRange 0 (x.ntor + 1) (fun n s =>
        let idx_mn := m * (x.ntor + 1) + n
        let i := x.idx jF m n
        let s := put s .rcc i (cc jF idx_mn)
        let s := put s .zsc i (sc jF idx_mn)
        if x.lthreed then
          let s := put s .rss i (ss jF idx_mn)
          put s .zcs i (cs jF idx_mn)
        else s) s) s)) s c (x.idx j m n))
      = if lo ≤ j ∧ j < hi then
          setCol (rzVals x (cc j (m * (x.ntor + 1) + n)) (ss j (m * (x.ntor + 1) + n))
            (sc j (m * (x.ntor + 1) + n)) (cs j (m * (x.ntor + 1) + n))) (fun c => s c (x.idx j m n))
        else fun c => s c (x.idx j m n) := by
  have := grid3 (lo := lo) (hi := hi) (j0 := x.nsMin) (mpol := x.mpol) (ntor := x.ntor)
    (mlo := 0) (mhi := x.mpol) (nlo := 0) (nhi := x.ntor + 1) (by omega) (by omega) (by omega) (by omega)
    (fun jF m n s =>
        let idx_mn := m * (x.ntor + 1) + n
        let i := x.idx jF m n
        let s := put s .rcc i (cc jF idx_mn)
        let s := put s .zsc i (sc jF idx_mn)
        if x.lthreed then
          let s := put s .rss i (ss jF idx_mn)
          put s .zcs i (cs jF idx_mn)
        else s)
    (fun j m n v => setCol (rzVals x (cc j (m * (x.ntor + 1) + n)) (ss j (m * (x.ntor + 1) + n))
            (sc j (m * (x.ntor + 1) + n)) (cs j (m * (x.ntor + 1) + n))) v)
    (by
      intro j m n s i
      funext c
      have hfc : ∀ j m n, fcIdx x.nsMin x.mpol x.ntor j m n = x.idx j m n := fun _ _ _ => rfl
      rw [hfc]
      by_cases h3 : x.lthreed <;> by_cases hi : i = x.idx j m n <;> cases c <;>
        simp [put_apply, h3, hi, setCol, rzVals])
    s j m n h.1 h.2.1 h.2.2.1 h.2.2.2
  rw [Ctx.idx, this]
  have h2 : (0 ≤ m ∧ m < x.mpol) ∧ 0 ≤ n ∧ n < x.ntor + 1 := ⟨⟨h.1, h.2.1⟩, h.2.2.1, by have := h.2.2.2; omega⟩
  by_cases e : lo ≤ j ∧ j < hi
  · rw [if_pos ⟨e, h2⟩, if_pos e]
  · rw [if_neg (fun h => e h.1), if_neg e]

/-- state after the second loop -/
theorem l_col (x : Ctx) (lo hi : Int) (sc cs : Int → Int → ℝ) (q : Int → ℝ) (s : State) (j m n : Int) (h : x.isMode m n) :
    (fun c => forRange lo hi (fun jF s =>
      (forRange 0 x.mpol (fun m s => forRange 0 (x.ntor + 1) (fun n s =>
        let idx_mn := m * (x.ntor + 1) + n
        let i := x.idx jF m n
        let lambda_unscaling := q jF
        let s := put s .lsc i (sc jF idx_mn / lambda_unscaling)
        if x.lthreed then put s .lcs i (cs jF idx_mn / lambda_unscaling) else s) s) s)) s c (x.idx j m n))
      = if lo ≤ j ∧ j < hi then
          setCol (lVals x (sc j (m * (x.ntor + 1) + n) / q j) (cs j (m * (x.ntor + 1) + n) / q j))
            (fun c => s c (x.idx j m n))
        else fun c => s c (x.idx j m n) := by
  have := grid3 (lo := lo) (hi := hi) (j0 := x.nsMin) (mpol := x.mpol) (ntor := x.ntor)
    (mlo := 0) (mhi := x.mpol) (nlo := 0) (nhi := x.ntor + 1) (by omega) (by omega) (by omega) (by omega)
    (fun jF m n s =>
        let idx_mn := m * (x.ntor + 1) + n
        let i := x.idx jF m n
        let lambda_unscaling := q jF
        let s := put s .lsc i (sc jF idx_mn / lambda_unscaling)
        if x.lthreed then put s .lcs i (cs jF idx_mn / lambda_unscaling) else s)
    (fun j m n v => setCol (lVals x (sc j (m * (x.ntor + 1) + n) / q j) (cs j (m * (x.ntor + 1) + n) / q j)) v)
    (by
      intro j m n s i
      funext c
      have hfc : ∀ j m n, fcIdx x.nsMin x.mpol x.ntor j m n = x.idx j m n := fun _ _ _ => rfl
      rw [hfc]
      by_cases h3 : x.lthreed <;> by_cases hi : i = x.idx j m n <;> cases c <;>
        simp [put_apply, h3, hi, setCol, lVals])
    s j m n h.1 h.2.1 h.2.2.1 h.2.2.2
  rw [Ctx.idx, this]
  have h2 : (0 ≤ m ∧ m < x.mpol) ∧ 0 ≤ n ∧ n < x.ntor + 1 := ⟨⟨h.1, h.2.1⟩, h.2.2.1, by have := h.2.2.2; omega⟩
  by_cases e : lo ≤ j ∧ j < hi
  · rw [if_pos ⟨e, h2⟩, if_pos e]
  · rw [if_neg (fun h => e h.1), if_neg e]

theorem idx_block (x : Ctx) (j m n : Int) (h : x.isMode m n) (hN : 0 ≤ x.ntor) :
    (x.ns - 1 - x.nsMin) * x.mpol * (x.ntor + 1) ≤ x.idx j m n ∧
      x.idx j m n < (x.ns - 1 - x.nsMin) * x.mpol * (x.ntor + 1) + x.mpol * (x.ntor + 1) ↔ j = x.ns - 1 := by
  obtain ⟨h1, h2, h3, h4⟩ := h
  unfold Ctx.idx fcIdx
  have hb : 0 < x.mpol * (x.ntor + 1) := Int.mul_pos (by omega) (by omega)
  have hr : 0 ≤ m * (x.ntor + 1) + n ∧ m * (x.ntor + 1) + n < x.mpol * (x.ntor + 1) := by
    have := Int.mul_le_mul_of_nonneg_right (show m + 1 ≤ x.mpol by omega) (show 0 ≤ x.ntor + 1 by omega)
    have := Int.mul_nonneg h1 (show 0 ≤ x.ntor + 1 by omega)
    have e : (m + 1) * (x.ntor + 1) = m * (x.ntor + 1) + (x.ntor + 1) := by ring
    omega
  have e1 : ((j - x.nsMin) * x.mpol + m) * (x.ntor + 1) + n
      = (j - x.nsMin) * (x.mpol * (x.ntor + 1)) + (m * (x.ntor + 1) + n) := by ring
  have e2 : (x.ns - 1 - x.nsMin) * x.mpol * (x.ntor + 1) = (x.ns - 1 - x.nsMin) * (x.mpol * (x.ntor + 1)) := by ring
  rw [e1, e2]
  constructor
  · intro hh
    have := flat_inj (b := x.mpol * (x.ntor + 1)) (m := j - x.nsMin) (n := m * (x.ntor + 1) + n)
      (m' := x.ns - 1 - x.nsMin)
      (n' := (j - x.nsMin) * (x.mpol * (x.ntor + 1)) + (m * (x.ntor + 1) + n) - (x.ns - 1 - x.nsMin) * (x.mpol * (x.ntor + 1)))
      hr.1 hr.2 (by omega) (by omega) (by ring)
    omega
  · intro hj
    subst hj
    omega

theorem boundary_col (x : Ctx) (hN : 0 ≤ x.ntor) (ms ns : Int → ℝ) (b : Boundary.Arrays) (s : State) (j m n : Int)
    (h : x.isMode m n) :
    (fun c => copyBoundary x ms ns b s c (x.idx j m n))
      = if j = x.ns - 1 then
          setCol (rzVals x (b .rbcc (m * (x.ntor + 1) + n) * (1 / (ms m * ns n)))
            (b .rbss (m * (x.ntor + 1) + n) * (1 / (ms m * ns n)))
            (b .zbsc (m * (x.ntor + 1) + n) * (1 / (ms m * ns n)))
            (b .zbcs (m * (x.ntor + 1) + n) * (1 / (ms m * ns n)))) (fun c => s c (x.idx j m n))
        else fun c => s c (x.idx j m n) := by
  unfold copyBoundary
  have hgrid := grid3 (lo := x.ns - 1) (hi := x.ns - 1 + 1) (j0 := x.nsMin) (mpol := x.mpol) (ntor := x.ntor)
    (mlo := 0) (mhi := x.mpol) (nlo := 0) (nhi := x.ntor + 1) (by omega) (by omega) (by omega) (by omega)
    (fun jF m n s => normBody x ms ns jF m n s)
    (fun j m n v => setCol (rzVals x (v .rcc * (1 / (ms m * ns n))) (v .rss * (1 / (ms m * ns n)))
      (v .zsc * (1 / (ms m * ns n))) (v .zcs * (1 / (ms m * ns n)))) v)
    (by
      intro j m n s i
      funext c
      have hfc : ∀ j m n, fcIdx x.nsMin x.mpol x.ntor j m n = x.idx j m n := fun _ _ _ => rfl
      rw [hfc]
      unfold normBody
      by_cases h3 : x.lthreed <;> by_cases hi : i = x.idx j m n <;> cases c <;>
        simp [put_apply, h3, hi, setCol, rzVals])
    (boundaryBlock x b s) j m n h.1 h.2.1 h.2.2.1 h.2.2.2
  simp only [forRange_single] at hgrid
  rw [Ctx.idx, hgrid]
  have hm2 : (0 ≤ m ∧ m < x.mpol) ∧ 0 ≤ n ∧ n < x.ntor + 1 := ⟨⟨h.1, h.2.1⟩, h.2.2.1, by have := h.2.2.2; omega⟩
  have hblk := idx_block x j m n h hN
  rw [Ctx.idx] at hblk
  by_cases e : j = x.ns - 1
  · rw [if_pos ⟨by omega, hm2⟩, if_pos e]
    have hoff : fcIdx x.nsMin x.mpol x.ntor j m n - (x.ns - 1 - x.nsMin) * x.mpol * (x.ntor + 1)
        = m * (x.ntor + 1) + n := by rw [e]; unfold fcIdx; ring
    funext c
    by_cases h3 : x.lthreed <;> cases c <;> simp [setCol, rzVals, h3, boundaryBlock, hblk.mpr e, hoff]
  · rw [if_neg (fun h => e (by omega)), if_neg e]
    funext c
    simp only [boundaryBlock, hblk, e, if_false]

theorem axis_zero (x : Ctx) (hm0 : x.nsMin = 0) (s : State) (c : F) (j m n : Int) (h : x.isMode m n) :
    forRange 0 (x.ntor + 1) (fun n s => axisBody x 0 0 n s) s c (x.idx j m n)
      = if j = 0 ∧ m = 0 ∧ (c = .lsc ∨ (c = .lcs ∧ x.lthreed = true)) then 0 else s c (x.idx j m n) := by
  have hgrid := grid3 (lo := 0) (hi := 0 + 1) (j0 := x.nsMin) (mpol := x.mpol) (ntor := x.ntor)
    (mlo := 0) (mhi := 0 + 1) (nlo := 0) (nhi := x.ntor + 1) (by omega) (by have := h.1; have := h.2.1; omega) (by omega) (by omega)
    (fun jF m n (s : State) => axisBody x jF m n s)
    (fun j m n v => setCol (lVals x 0 0) v)
    (by
      intro j m n s i
      funext c
      have hfc : ∀ j m n, fcIdx x.nsMin x.mpol x.ntor j m n = x.idx j m n := fun _ _ _ => rfl
      rw [hfc]
      unfold axisBody
      by_cases h3 : x.lthreed <;> by_cases hi : i = x.idx j m n <;> cases c <;>
        simp [put_apply, h3, hi, setCol, lVals])
    s j m n h.1 h.2.1 h.2.2.1 h.2.2.2
  simp only [forRange_single] at hgrid
  have := congrFun hgrid c
  beta_reduce at this
  rw [Ctx.idx, this]
  obtain ⟨h1, h2, h3, h4⟩ := h
  by_cases e : j = 0 ∧ m = 0
  · rw [if_pos (by omega)]
    by_cases h3 : x.lthreed <;> cases c <;> simp [setCol, lVals, e, h3]
  · rw [if_neg (by omega), if_neg (by tauto)]

/-- what the read-in puts into the state -/
structure ReadSpec (x : Ctx) (ms ns : Int → ℝ) (rmnc zmns lmns : Mat) (lamscale : ℝ) (phipF : Int → ℝ)
    (lim : Int) (s' : State) : Prop where
  rz : ∀ j m n, x.nsMin ≤ j → j < min x.nsMax lim → x.isMode m n →
    ∃ cc ss sc cs : Int → ℝ,
      cos_to_cc_ss fastPoloidal ms ns (fun mn => rmnc mn j) (fun _ => 0) (fun _ => 0) x.ntor x.mpol = .ok (cc, ss) ∧
      sin_to_sc_cs fastPoloidal ms ns (fun mn => zmns mn j) (fun _ => 0) (fun _ => 0) x.ntor x.mpol = .ok (sc, cs) ∧
      s' .rcc (x.idx j m n) = cc (m * (x.ntor + 1) + n) ∧
      s' .zsc (x.idx j m n) = sc (m * (x.ntor + 1) + n) ∧
      (x.lthreed = true → s' .rss (x.idx j m n) = (if m = 1 then
          (ss (m * (x.ntor + 1) + n) + cs (m * (x.ntor + 1) + n)) * (1 / 2) else ss (m * (x.ntor + 1) + n)) ∧
        s' .zcs (x.idx j m n) = (if m = 1 then
          (ss (m * (x.ntor + 1) + n) - cs (m * (x.ntor + 1) + n)) * (1 / 2) else cs (m * (x.ntor + 1) + n)))
  lam : ∀ j m n, x.nsMin ≤ j → j < x.nsMax → x.isMode m n → (j = 0 → m ≠ 0) →
    ∃ sc cs : Int → ℝ,
      sin_to_sc_cs fastPoloidal ms ns (fun mn => lmns mn j) (fun _ => 0) (fun _ => 0) x.ntor x.mpol = .ok (sc, cs) ∧
      s' .lsc (x.idx j m n) = sc (m * (x.ntor + 1) + n) / (lamscale / phipF (j - x.nsMinF1)) ∧
      (x.lthreed = true → s' .lcs (x.idx j m n) = cs (m * (x.ntor + 1) + n) / (lamscale / phipF (j - x.nsMinF1)))

theorem init_spec (x : Ctx) (hM : 2 ≤ x.mpol) (hN : 0 ≤ x.ntor) (h0 : 0 ≤ x.nsMin) (ms ns : Int → ℝ)
    (rmnc zmns lmns : Mat) (lamscale : ℝ) (phipF : Int → ℝ) (b : Option Boundary.Arrays) (s : State) :
    ∃ s', initFromState x ms ns rmnc zmns lmns lamscale phipF b s = .ok s' ∧
      ReadSpec x ms ns rmnc zmns lmns lamscale phipF (if b.isSome then x.ns - 1 else x.ns) s' ∧
      (∀ j m n c, x.isMode m n → x.nsMin ≤ j → c ∈ [F.rcs, F.zss] → s' c (x.idx j m n) = s c (x.idx j m n)) ∧
      (∀ j m n, x.isMode m n → x.nsMin ≤ j → s .rsc (x.idx j m n) = 0 → s .zcc (x.idx j m n) = 0 →
        s' .rsc (x.idx j m n) = 0 ∧ s' .zcc (x.idx j m n) = 0) ∧
      (∀ b', b = some b' → x.nsMaxF1 = x.ns → x.nsMin ≤ x.ns - 1 → ∀ m n, x.isMode m n →
        s' .rcc (x.idx (x.ns - 1) m n) = b' .rbcc (m * (x.ntor + 1) + n) / (ms m * ns n) ∧
        s' .zsc (x.idx (x.ns - 1) m n) = b' .zbsc (m * (x.ntor + 1) + n) / (ms m * ns n) ∧
        (x.lthreed = true → s' .rss (x.idx (x.ns - 1) m n) = b' .rbss (m * (x.ntor + 1) + n) / (ms m * ns n) ∧
          s' .zcs (x.idx (x.ns - 1) m n) = b' .zbcs (m * (x.ntor + 1) + n) / (ms m * ns n))) := by
  have G := good_fastPoloidal x.mpol x.ntor hN
  choose cc ss hcc _ using fun j => cos_to_cc_ss_eq fastPoloidal x.mpol x.ntor (by omega) hN G ms ns
    (fun mn => rmnc mn j) (fun _ => 0) (fun _ => 0)
  choose sc cs hsc _ using fun j => sin_to_sc_cs_eq fastPoloidal x.mpol x.ntor (by omega) hN G ms ns
    (fun mn => zmns mn j) (fun _ => 0) (fun _ => 0)
  choose lsc lcs hlsc _ using fun j => sin_to_sc_cs_eq fastPoloidal x.mpol x.ntor (by omega) hN G ms ns
    (fun mn => lmns mn j) (fun _ => 0) (fun _ => 0)
  unfold initFromState
  dsimp only
  set lim := (if b.isSome then x.ns - 1 else x.ns) with hlimdef
  rw [forRangeM_ok _ _ (fun j s => by
    unfold initRZBody
    rw [hcc j, hsc j]
    rfl)]
  simp only [Outcome.bind_ok]
  rw [forRangeM_ok _ _ (fun j s => by
    unfold initLBody
    rw [hlsc j]
    rfl)]
  simp only [Outcome.bind_ok]
  set s1 := forRange x.nsMin (min x.nsMax lim) (fun jF s =>
      (forRange 0 x.mpol (fun m s => forRange 0 (x.ntor + 1) (fun n s =>
        let idx_mn := m * (x.ntor + 1) + n
        let i := x.idx jF m n
        let s := put s .rcc i (cc jF idx_mn)
        let s := put s .zsc i (sc jF idx_mn)
        if x.lthreed then
          let s := put s .rss i (ss jF idx_mn)
          put s .zcs i (cs jF idx_mn)
        else s) s) s)) s with hs1
  set s2 := forRange x.nsMin x.nsMax (fun jF s =>
      (forRange 0 x.mpol (fun m s => forRange 0 (x.ntor + 1) (fun n s =>
        let idx_mn := m * (x.ntor + 1) + n
        let i := x.idx jF m n
        let lambda_unscaling := lamscale / phipF (jF - x.nsMinF1)
        let s := put s .lsc i (lsc jF idx_mn / lambda_unscaling)
        if x.lthreed then put s .lcs i (lcs jF idx_mn / lambda_unscaling) else s) s) s)) s1 with hs2
  set s3 := edge x ms ns b s2 with hs3
  set s4 := m1Constraint x (1 / 2) (some lim) s3 with hs4
  have c1 : ∀ j m n, x.isMode m n → _ := fun j m n h => rz_col x x.nsMin (min x.nsMax lim) cc ss sc cs s j m n h
  have c2 : ∀ j m n, x.isMode m n → _ := fun j m n h =>
    l_col x x.nsMin x.nsMax lsc lcs (fun j => lamscale / phipF (j - x.nsMinF1)) s1 j m n h
  have c3 : ∀ j m n c, x.isMode m n → (j ≠ x.ns - 1 ∨ b = none ∨ c ∉ [F.rcc, F.zsc, F.rss, F.zcs]) →
      s3 c (x.idx j m n) = s2 c (x.idx j m n) := by
    intro j m n c h hj
    rw [hs3]
    unfold edge
    cases hb : b with
    | none => rfl
    | some b' =>
      dsimp only
      split
      · have := congrFun (boundary_col x hN ms ns b' s2 j m n h) c
        beta_reduce at this
        rw [this]
        split
        · rename_i e
          rcases hj with hj | hj | hj
          · exact absurd e hj
          · rw [hb] at hj; exact absurd hj (by simp)
          · cases c <;> simp at hj <;> rfl
        · rfl
      · rfl
  have c4 : ∀ j m n, x.isMode m n → _ := fun j m n h =>
    m1_col x hM (1 / 2) (some lim) s3 j m n h.1 h.2.1 h.2.2.1 h.2.2.2
  have fin : ∀ s5 : State, (∀ j m n c, x.isMode m n → x.nsMin ≤ j →
      (c ∉ [F.lsc, F.lcs] ∨ (j = 0 → m ≠ 0)) → s5 c (x.idx j m n) = s4 c (x.idx j m n)) →
      ReadSpec x ms ns rmnc zmns lmns lamscale phipF lim s5 ∧
      (∀ j m n c, x.isMode m n → x.nsMin ≤ j → c ∈ [F.rcs, F.zss] → s5 c (x.idx j m n) = s c (x.idx j m n)) ∧
      (∀ j m n, x.isMode m n → x.nsMin ≤ j → s .rsc (x.idx j m n) = 0 → s .zcc (x.idx j m n) = 0 →
        s5 .rsc (x.idx j m n) = 0 ∧ s5 .zcc (x.idx j m n) = 0) ∧
      (∀ b', b = some b' → x.nsMaxF1 = x.ns → x.nsMin ≤ x.ns - 1 → ∀ m n, x.isMode m n →
        s5 .rcc (x.idx (x.ns - 1) m n) = b' .rbcc (m * (x.ntor + 1) + n) / (ms m * ns n) ∧
        s5 .zsc (x.idx (x.ns - 1) m n) = b' .zbsc (m * (x.ntor + 1) + n) / (ms m * ns n) ∧
        (x.lthreed = true → s5 .rss (x.idx (x.ns - 1) m n) = b' .rbss (m * (x.ntor + 1) + n) / (ms m * ns n) ∧
          s5 .zcs (x.idx (x.ns - 1) m n) = b' .zbcs (m * (x.ntor + 1) + n) / (ms m * ns n))) := by
    intro s5 h5
    refine ⟨⟨?_, ?_⟩, ?_, ?_, ?_⟩
    · intro j m n hj hj' h
      refine ⟨cc j, ss j, sc j, cs j, hcc j, hsc j, ?_⟩
      have hjb : j ≠ x.ns - 1 ∨ b = none := by
        cases hb : b with
        | none => exact Or.inr rfl
        | some b' =>
          left
          have : lim = x.ns - 1 := by rw [hlimdef, hb]; rfl
          omega
      have hr : ∀ c, c ∈ [F.rcc, F.zsc, F.rss, F.zcs] → s3 c (x.idx j m n) =
          setCol (rzVals x (cc j (m * (x.ntor + 1) + n)) (ss j (m * (x.ntor + 1) + n))
            (sc j (m * (x.ntor + 1) + n)) (cs j (m * (x.ntor + 1) + n))) (fun c => s c (x.idx j m n)) c := by
        intro c hc
        rw [c3 j m n c h (by tauto)]
        have d2 := congrFun (c2 j m n h) c
        have d1 := congrFun (c1 j m n h) c
        rw [if_pos ⟨hj, hj'⟩] at d1
        beta_reduce at d1 d2
        rw [hs2, d2]
        have : x.nsMin ≤ j ∧ j < x.nsMax := ⟨hj, lt_of_lt_of_le hj' (min_le_left _ _)⟩
        rw [if_pos this, ← d1]
        cases c <;> simp at hc <;> rfl
      have hm1 : x.nsMin ≤ j ∧ j < x.m1Max (some lim) := ⟨hj, by
        simp only [Ctx.m1Max]; rw [min_comm]; exact hj'⟩
      have e4 := c4 j m n h
      have v1 := hr .rcc (by simp); have v2 := hr .zsc (by simp)
      have v3 := hr .rss (by simp); have v4 := hr .zcs (by simp)
      rw [h5 j m n .rcc h hj (by simp), h5 j m n .zsc h hj (by simp), h5 j m n .rss h hj (by simp),
        h5 j m n .zcs h hj (by simp)]
      by_cases e : m = 1
      · rw [if_pos ⟨hm1, e⟩] at e4
        have w1 := congrFun e4 .rcc; have w2 := congrFun e4 .zsc
        have w3 := congrFun e4 .rss; have w4 := congrFun e4 .zcs
        simp only [mixF] at w1 w2 w3 w4
        rw [hs4, w1, w2, w3, w4, v1, v2, v3, v4]
        refine ⟨rfl, rfl, fun h3 => ?_⟩
        simp [h3, e, setCol, rzVals]
      · rw [if_neg (fun h => e h.2)] at e4
        have w1 := congrFun e4 .rcc; have w2 := congrFun e4 .zsc
        have w3 := congrFun e4 .rss; have w4 := congrFun e4 .zcs
        beta_reduce at w1 w2 w3 w4
        rw [hs4, w1, w2, w3, w4, v1, v2, v3, v4]
        refine ⟨rfl, rfl, fun h3 => ?_⟩
        simp [h3, e, setCol, rzVals]
    · intro j m n hj hj' h hne
      refine ⟨lsc j, lcs j, hlsc j, ?_⟩
      have e4 := c4 j m n h
      have keep : ∀ c, c ∈ [F.lsc, F.lcs] → s4 c (x.idx j m n) = s2 c (x.idx j m n) := by
        intro c hc
        rw [← c3 j m n c h (by right; right; cases c <;> simp at hc ⊢)]
        have := congrFun e4 c
        beta_reduce at this
        rw [hs4, this]
        split
        · cases c <;> simp at hc <;> rfl
        · rfl
      have d2 := c2 j m n h
      rw [if_pos ⟨hj, hj'⟩] at d2
      have d3 := congrFun d2 .lsc; have d4 := congrFun d2 .lcs
      beta_reduce at d3 d4
      rw [h5 j m n .lsc h hj (Or.inr hne), h5 j m n .lcs h hj (Or.inr hne), keep .lsc (by simp),
        keep .lcs (by simp), hs2, d3, d4]
      exact ⟨rfl, fun h3 => by simp [setCol, lVals, h3]⟩
    · intro j m n c h hj hc
      rw [h5 j m n c h hj (by left; cases c <;> simp at hc ⊢)]
      have e4 := congrFun (c4 j m n h) c
      beta_reduce at e4
      rw [hs4, e4]
      have k3 := c3 j m n c h (by right; right; cases c <;> simp at hc ⊢)
      have d2 := congrFun (c2 j m n h) c
      have d1 := congrFun (c1 j m n h) c
      beta_reduce at d1 d2
      have k : s3 c (x.idx j m n) = s c (x.idx j m n) := by
        rw [k3, hs2, d2]
        have : s1 c (x.idx j m n) = s c (x.idx j m n) := by
          rw [hs1, d1]
          split
          · cases c <;> simp at hc <;> rfl
          · rfl
        split
        · rw [← this]; cases c <;> simp at hc <;> rfl
        · exact this
      split
      · rw [← k]; cases c <;> simp at hc <;> rfl
      · exact k
    · intro j m n h hj z1 z2
      have k : ∀ c, c ∈ [F.rsc, F.zcc] → s3 c (x.idx j m n) = s c (x.idx j m n) := by
        intro c hc
        have k3 := c3 j m n c h (by right; right; cases c <;> simp at hc ⊢)
        have d2 := congrFun (c2 j m n h) c
        have d1 := congrFun (c1 j m n h) c
        beta_reduce at d1 d2
        rw [k3, hs2, d2]
        have : s1 c (x.idx j m n) = s c (x.idx j m n) := by
          rw [hs1, d1]
          split
          · cases c <;> simp at hc <;> rfl
          · rfl
        split
        · rw [← this]; cases c <;> simp at hc <;> rfl
        · exact this
      have e4 := c4 j m n h
      have w1 := congrFun e4 .rsc; have w2 := congrFun e4 .zcc
      beta_reduce at w1 w2
      have k1 := k .rsc (by simp); have k2 := k .zcc (by simp)
      rw [z1] at k1; rw [z2] at k2
      rw [h5 j m n .rsc h hj (by simp), h5 j m n .zcc h hj (by simp), hs4, w1, w2]
      constructor
      · split
        · simp [mixF, k1, k2]
        · exact k1
      · split
        · simp [mixF, k1, k2]
        · exact k2
    · intro b' hb hmax hmin m n h
      have hlim2 : lim = x.ns - 1 := by rw [hlimdef, hb]; rfl
      have e4 := c4 (x.ns - 1) m n h
      rw [if_neg (by
        rintro ⟨⟨_, h'⟩, _⟩
        simp only [Ctx.m1Max] at h'
        have := lt_of_lt_of_le h' (min_le_left _ _)
        omega)] at e4
      have e3 := boundary_col x hN ms ns b' s2 (x.ns - 1) m n h
      rw [show copyBoundary x ms ns b' s2 = s3 by rw [hs3, hb, edge, if_pos hmax]] at e3
      rw [if_pos rfl] at e3
      have w1 := congrFun e4 .rcc; have w2 := congrFun e4 .zsc
      have w3 := congrFun e4 .rss; have w4 := congrFun e4 .zcs
      have u1 := congrFun e3 .rcc; have u2 := congrFun e3 .zsc
      have u3 := congrFun e3 .rss; have u4 := congrFun e3 .zcs
      beta_reduce at w1 w2 w3 w4 u1 u2 u3 u4
      rw [h5 _ m n .rcc h hmin (by simp), h5 _ m n .zsc h hmin (by simp), h5 _ m n .rss h hmin (by simp),
        h5 _ m n .zcs h hmin (by simp), hs4, w1, w2, w3, w4, u1, u2, u3, u4]
      refine ⟨?_, ?_, fun h3 => ⟨?_, ?_⟩⟩
      · simp [setCol, rzVals, div_eq_mul_inv]
      · simp [setCol, rzVals, div_eq_mul_inv]
      · simp [setCol, rzVals, h3, div_eq_mul_inv]
      · simp [setCol, rzVals, h3, div_eq_mul_inv]
  by_cases hmin : x.nsMin = 0
  · rw [if_pos hmin]
    refine ⟨_, rfl, fin _ ?_⟩
    intro j m n c h hj hc
    rw [axis_zero x hmin s4 c j m n h, if_neg]
    rintro ⟨a1, a2, a3⟩
    rcases hc with hc | hc
    · rcases a3 with a3 | ⟨a3, _⟩ <;> simp [a3] at hc
    · exact hc a1 a2
  · rw [if_neg hmin]
    exact ⟨_, rfl, fin s4 (fun j m n c _ _ _ => rfl)⟩

end Verif.HotRestart
