import Verif.Coeffs.ResidualsProps
import Verif.Multigrid.Spec

/-!
# C101, continued: consequences for the residuals, virtual work, scaling steps
-/
namespace Verif.Coeffs
open Verif Verif.Partition

/-! ## vanishing residuals -/

theorem power4_zero (h3 hl : Bool) (a b c d : ℝ) : power4 h3 hl a b c d = 0 ↔ a = 0 ∧ (h3 = true → b = 0) ∧ (hl = true → c = 0) ∧ (h3 = true → hl = true → d = 0) := by
  unfold power4
  have := sq_nonneg a; have := sq_nonneg b; have := sq_nonneg c; have := sq_nonneg d
  cases h3 <;> cases hl <;> simp
  · constructor
    · intro h; exact ⟨by nlinarith, by nlinarith⟩
    · rintro ⟨rfl, rfl⟩; norm_num
  · constructor
    · intro h; exact ⟨by nlinarith, by nlinarith⟩
    · rintro ⟨rfl, rfl⟩; norm_num
  · constructor
    · intro h; exact ⟨by nlinarith, by nlinarith, by nlinarith, by nlinarith⟩
    · rintro ⟨rfl, rfl, rfl, rfl⟩; norm_num

theorem modeSum_zero {E mpol ntor : Int} {g : Int → Int → Int → ℝ} (hg : ∀ j m n, 0 ≤ g j m n) :
    ∑ j ∈ Finset.Ico 0 E, modeSum mpol ntor (g j) = 0 ↔ ∀ j m n, 0 ≤ j → j < E → 0 ≤ m → m < mpol → 0 ≤ n → n ≤ ntor → g j m n = 0 := by
  unfold modeSum
  rw [Finset.sum_eq_zero_iff_of_nonneg fun j _ => Finset.sum_nonneg fun m _ => Finset.sum_nonneg fun n _ => hg j m n]
  constructor
  · intro h j m n j0 j1 m0 m1 n0 n1
    have a := h j (Finset.mem_Ico.2 ⟨j0, j1⟩)
    rw [Finset.sum_eq_zero_iff_of_nonneg fun m _ => Finset.sum_nonneg fun n _ => hg j m n] at a
    have b := a m (Finset.mem_Ico.2 ⟨m0, m1⟩)
    rw [Finset.sum_eq_zero_iff_of_nonneg fun n _ => hg j m n] at b
    exact b n (Finset.mem_Ico.2 ⟨n0, by omega⟩)
  · intro h j hj
    refine Finset.sum_eq_zero fun m hm => Finset.sum_eq_zero fun n hn => ?_
    obtain ⟨j0, j1⟩ := Finset.mem_Ico.1 hj
    obtain ⟨m0, m1⟩ := Finset.mem_Ico.1 hm
    obtain ⟨n0, n1⟩ := Finset.mem_Ico.1 hn
    exact h j m n j0 j1 m0 m1 n0 (by omega)

/-- **C101** (equilibrium): the residuals of `R` and `Z` without the edge vanish exactly if every harmonic of the force that the symmetry has vanishes on every surface inside the boundary; the force on the
    boundary is not seen. The residual of `λ` vanishes exactly if its force does on all surfaces. -/
theorem C101_zero {nt ns mpol ntor : Int} {lfreeb lasym : Bool} {R : Int → Ranges} (hns : 2 ≤ ns) (hnt : 1 ≤ nt) (hT : Team nt ns lfreeb R) (edge : Bool) (f : Int → State) (G : F → Int → Int → Int → ℝ)
    (hG : ∀ t, isThread nt t → ∀ j m n c, (R t).nsMinF ≤ j → j < (R t).nsMaxFIncludingLcfs → 0 ≤ m → m < mpol → 0 ≤ n → n ≤ ntor → f t c (((j - (R t).nsMinF) * mpol + m) * (ntor + 1) + n) = G c j m n)
    (order : List Int) (ho : order.Perm (irange 0 nt)) :
    let res := teamResiduals (fun t => residuals (forceCtx mpol ntor lasym ns (R t)) edge (f t)) order
    let none_ (E : Int) (a b c d : F) := ∀ j m n, 0 ≤ j → j < E → 0 ≤ m → m < mpol → 0 ≤ n → n ≤ ntor →
      G a j m n = 0 ∧ (0 < ntor → G b j m n = 0) ∧ (lasym = true → G c j m n = 0) ∧ (0 < ntor → lasym = true → G d j m n = 0)
    (res.1 = 0 ↔ none_ (if edge then ns else ns - 1) .rcc .rss .rsc .rcs) ∧ (res.2.1 = 0 ↔ none_ (if edge then ns else ns - 1) .zsc .zcs .zcc .zss) ∧ (res.2.2 = 0 ↔ none_ ns .lsc .lcs .lcc .lss) := by
  intro res none_
  have h := C101_team (lasym := lasym) hns hnt hT edge f G hG order ho
  have hr : res = _ := h
  rw [hr]
  refine ⟨?_, ?_, ?_⟩
  · refine (modeSum_zero (g := fun j m n => rPower (decide (0 < ntor)) lasym fun c => G c j m n) fun j m n => power4_nonneg _ _ _ _ _ _).trans ?_
    simp only [rPower, power4_zero, decide_eq_true_eq]; rfl
  · refine (modeSum_zero (g := fun j m n => zPower (decide (0 < ntor)) lasym fun c => G c j m n) fun j m n => power4_nonneg _ _ _ _ _ _).trans ?_
    simp only [zPower, power4_zero, decide_eq_true_eq]; rfl
  · refine (modeSum_zero (g := fun j m n => lPower (decide (0 < ntor)) lasym fun c => G c j m n) fun j m n => power4_nonneg _ _ _ _ _ _).trans ?_
    simp only [lPower, power4_zero, decide_eq_true_eq]; rfl

/-- a team of three threads on eleven surfaces, with a force that lives on the boundary only -/
example : ∃ (R : Int → Ranges) (f : Int → State), Team 3 11 true R ∧
    ∀ t, isThread 3 t → ∀ j m n c, (R t).nsMinF ≤ j → j < (R t).nsMaxFIncludingLcfs → 0 ≤ m → m < 4 → 0 ≤ n → n ≤ 2 →
      f t c (((j - (R t).nsMinF) * 4 + m) * (2 + 1) + n) = if j = 10 then 1 else 0 := by
  obtain ⟨R, h⟩ := C01_team_exists 3 11 true (by decide) (by decide) (by decide)
  refine ⟨R, fun t c i => if (10 - (R t).nsMinF) * 12 ≤ i then 1 else 0, h, fun t ht j m n c h1 h2 m0 m1 n0 n1 => ?_⟩
  have f := team_facts (by decide) (by decide) h ht
  have hb : j < 11 := by
    rw [f.2.2.2.2.2.2.2.2.2] at h2
    have := split_le (n := numSurfacesToDistribute 11 true) (nt := 3) (by decide) (by decide) ht.2
    have e : numSurfacesToDistribute 11 true = 11 := by decide
    split_ifs at h2 <;> omega
  have e2 : ((j - (R t).nsMinF) * 4 + m) * (2 + 1) + n = (j - (R t).nsMinF) * 12 + 3 * m + n := by ring
  show (if (10 - (R t).nsMinF) * 12 ≤ ((j - (R t).nsMinF) * 4 + m) * (2 + 1) + n then (1 : ℝ) else 0) = if j = 10 then 1 else 0
  rw [e2]
  refine if_congr ?_ rfl rfl
  omega

/-! ## the m = 1 combination leaves the residual alone -/

/-- **C101** (invariance): replacing the `m = 1` forces of the pairs by their sum and difference over `√2` changes neither the sum of the `R` and `Z` residuals of a thread nor the residual of `λ`: the factor is the one that makes the
    combination a rotation, which is why the force is treated with `1/√2` and the geometry with 1. -/
theorem C101_isometry (x : Ctx) (hM : 2 ≤ x.mpol) (edge : Bool) (f : State) :
    let g := m1Constraint x (1 / Real.sqrt 2) none f
    (residuals x edge g).1 + (residuals x edge g).2.1 = (residuals x edge f).1 + (residuals x edge f).2.1 ∧ (residuals x edge g).2.2 = (residuals x edge f).2.2 := by
  intro g
  have hs : (1 / Real.sqrt 2) ^ 2 = 1 / 2 := by rw [div_pow, one_pow, Real.sq_sqrt (by norm_num)]
  have col : ∀ j m n, 0 ≤ m → m < x.mpol → 0 ≤ n → n ≤ x.ntor →
      rPower x.lthreed x.lasym (fun c => g c (x.idx j m n)) + zPower x.lthreed x.lasym (fun c => g c (x.idx j m n)) =
        rPower x.lthreed x.lasym (fun c => f c (x.idx j m n)) + zPower x.lthreed x.lasym (fun c => f c (x.idx j m n)) ∧
      lPower x.lthreed x.lasym (fun c => g c (x.idx j m n)) = lPower x.lthreed x.lasym (fun c => f c (x.idx j m n)) := by
    intro j m n m0 m1 n0 n1
    have e := m1_col x hM (1 / Real.sqrt 2) none f j m n m0 m1 n0 n1
    rw [show (fun c => g c (x.idx j m n)) = _ from e]
    generalize 1 / Real.sqrt 2 = k at hs
    split_ifs
    · unfold rPower zPower lPower power4 mixF
      constructor
      · cases x.lthreed <;> cases x.lasym <;> simp [mul_pow, hs] <;> ring
      · rfl
    · exact ⟨rfl, rfl⟩
  have sums : ∀ (P Q : (F → ℝ) → ℝ) j, (∀ m n, 0 ≤ m → m < x.mpol → 0 ≤ n → n ≤ x.ntor → P (fun c => g c (x.idx j m n)) = Q fun c => f c (x.idx j m n)) →
      modeSum x.mpol x.ntor (fun m n => P fun c => g c (x.idx j m n)) = modeSum x.mpol x.ntor (fun m n => Q fun c => f c (x.idx j m n)) := by
    intro P Q j h
    unfold modeSum
    refine Finset.sum_congr rfl fun m hm => Finset.sum_congr rfl fun n hn => ?_
    obtain ⟨m0, m1⟩ := Finset.mem_Ico.1 hm
    obtain ⟨n0, n1⟩ := Finset.mem_Ico.1 hn
    exact h m n m0 m1 n0 (by omega)
  have addS : ∀ (u : State) j, modeSum x.mpol x.ntor (fun m n => rPower x.lthreed x.lasym fun c => u c (x.idx j m n)) + modeSum x.mpol x.ntor (fun m n => zPower x.lthreed x.lasym fun c => u c (x.idx j m n)) =
      modeSum x.mpol x.ntor (fun m n => (fun v => rPower x.lthreed x.lasym v + zPower x.lthreed x.lasym v) fun c => u c (x.idx j m n)) := by
    intro u j; unfold modeSum; simp only [Finset.sum_add_distrib]
  rw [residuals_eq, residuals_eq]
  refine ⟨?_, ?_⟩
  · simp only [← Finset.sum_add_distrib]
    refine Finset.sum_congr rfl fun j _ => ?_
    split_ifs
    · rw [addS, addS]
      exact sums (fun v => rPower x.lthreed x.lasym v + zPower x.lthreed x.lasym v) (fun v => rPower x.lthreed x.lasym v + zPower x.lthreed x.lasym v) j fun m n a b c d => (col j m n a b c d).1
    · rfl
  · dsimp only
    refine Finset.sum_congr rfl fun j _ => sums (lPower x.lthreed x.lasym) (lPower x.lthreed x.lasym) j fun m n a b c d => (col j m n a b c d).2

/-! ## virtual work -/

/-- scalar product of two sets of harmonics of one mode, over the arrays that the symmetry has -/
noncomputable def pairing (h3 hl : Bool) (u v : F → ℝ) : ℝ :=
  (u .rcc * v .rcc + u .zsc * v .zsc + u .lsc * v .lsc) + (if h3 then u .rss * v .rss + u .zcs * v .zcs + u .lcs * v .lcs else 0) +
    (if hl then u .rsc * v .rsc + u .zcc * v .zcc + u .lcc * v .lcc else 0) + if h3 ∧ hl then u .rcs * v .rcs + u .zss * v .zss + u .lss * v .lss else 0

/-- the arrays that take part in the `m = 1` constraint -/
def pairArray : F → Bool
  | .rss | .zcs | .rsc | .zcc => true
  | _ => false

theorem decompose_has (x : Ctx) (sc : Int → ℝ) (src dst : State) (j m n : Int) (hj : x.nsMin ≤ j) (hj' : j < x.jMaxIncludingBoundary) (h : x.isMode m n) (c : F) (hc : x.has c = true) :
    decomposeInto x sc src dst c (x.idx j m n) = src c (x.idx j m n) * sc ((j - x.nsMinF1) * 2 + m.tmod 2) :=
  Multigrid.decompose_col x sc src dst j m n hj hj' h.1 h.2.1 h.2.2.1 h.2.2.2 c hc

/-- **C101** (virtual work): the work of the physical force on a displacement of the geometry equals the work of the force that the code attributes to the state, if the `m = 1` forces of the pairs are multiplied by `√2`. On every
    surface that the thread owns. -/
theorem C101_virtual_work_partial {nt ns mpol ntor : Int} {lfreeb lasym : Bool} {R : Int → Ranges} (hns : 2 ≤ ns) (hnt : 1 ≤ nt) (hT : Team nt ns lfreeb R) {t : Int} (ht : isThread nt t) (hM : 2 ≤ mpol) (sc : Int → ℝ)
    (pf dstF δ dstX : State) {j m n : Int} (hj : (R t).nsMinF ≤ j) (hj' : j < (R t).nsMaxF) (hm : 0 ≤ m) (hm' : m < mpol) (hn : 0 ≤ n) (hn' : n ≤ ntor) :
    let xf := forceCtx mpol ntor lasym ns (R t)
    let xg := geometryCtx mpol ntor lasym ns (R t)
    let force := m1Constraint xf (1 / Real.sqrt 2) none (decomposeInto xf sc pf dstF)
    pairing xf.lthreed lasym (fun c => pf c (xf.idx j m n)) (fun c => physicalGeometry xg sc δ dstX c (xg.idx j m n)) =
      pairing xf.lthreed lasym (fun c => (if m = 1 ∧ pairArray c then Real.sqrt 2 else 1) * force c (xf.idx j m n)) (fun c => δ c (xg.idx j m n)) := by
  intro xf xg force
  have ff := team_facts hns hnt hT ht
  have b := split_le (n_nonneg (by omega) : 0 ≤ numSurfacesToDistribute ns lfreeb) (by omega : 0 < nt) ht.2
  have a := split_nonneg (n_nonneg (by omega) : 0 ≤ numSurfacesToDistribute ns lfreeb) (by omega : 0 < nt) ht.1
  have hN : numSurfacesToDistribute ns lfreeb ≤ ns := by unfold numSurfacesToDistribute; split_ifs <;> omega
  have isM : xf.isMode m n := ⟨hm, hm', hn, hn'⟩
  have isM' : xg.isMode m n := ⟨hm, hm', hn, hn'⟩
  have jf : xf.nsMin ≤ j ∧ j < xf.nsMax := ⟨hj, hj'⟩
  have jg : xg.nsMin ≤ j ∧ j < xg.nsMax := by
    show (R t).nsMinF1 ≤ j ∧ j < (R t).nsMaxF1
    omega
  have jfB : j < xf.jMaxIncludingBoundary := by
    show j < if (R t).nsMaxF1 = ns then ns else (R t).nsMaxF
    split_ifs <;> omega
  have jgB : j < xg.jMaxIncludingBoundary := by
    show j < if (R t).nsMaxF1 = ns then ns else (R t).nsMaxF1
    have := jg.2
    have e : xg.nsMax = (R t).nsMaxF1 := rfl
    split_ifs <;> omega
  have colF := m1_col xf hM (1 / Real.sqrt 2) none (decomposeInto xf sc pf dstF) j m n hm hm' hn hn'
  have colG := m1_col xg hM 1 none (decomposeInto xg sc δ dstX) j m n hm hm' hn hn'
  have dF := decompose_has xf sc pf dstF j m n jf.1 jfB isM
  have dG := decompose_has xg sc δ dstX j m n jg.1 jgB isM'
  have e1 : xf.nsMinF1 = xg.nsMinF1 := rfl
  have hl1 : xf.lasym = lasym := rfl
  have hl2 : xg.lasym = lasym := rfl
  have h31 : xg.lthreed = xf.lthreed := rfl
  rw [← e1] at dG
  generalize hk : sc ((j - xf.nsMinF1) * 2 + m.tmod 2) = k at dF dG
  have hs : Real.sqrt 2 * (1 / Real.sqrt 2) = 1 := by field_simp
  have gF : ∀ c, force c (xf.idx j m n) = (if m = 1 then mixF xf (1 / Real.sqrt 2) (fun c => decomposeInto xf sc pf dstF c (xf.idx j m n)) else fun c => decomposeInto xf sc pf dstF c (xf.idx j m n)) c := by
    intro c
    have := congrFun colF c
    simpa only [Ctx.m1Max, jf.1, jf.2, true_and, and_self] using this
  have gG : ∀ c, physicalGeometry xg sc δ dstX c (xg.idx j m n) = (if m = 1 then mixF xg 1 (fun c => decomposeInto xg sc δ dstX c (xg.idx j m n)) else fun c => decomposeInto xg sc δ dstX c (xg.idx j m n)) c := by
    intro c
    have := congrFun colG c
    unfold physicalGeometry
    simpa only [Ctx.m1Max, jg.1, jg.2, true_and, and_self] using this
  have hasE : ∀ c, xg.has c = xf.has c := fun c => rfl
  simp only [hasE] at dG
  generalize (1 / Real.sqrt 2) = q at *
  generalize Real.sqrt 2 = p at *
  simp only [gF, gG]
  generalize xf.idx j m n = i at *
  generalize xg.idx j m n = i' at *
  have F0 := dF .rcc rfl; have F1 := dF .zsc rfl; have F2 := dF .lsc rfl
  have G0 := dG .rcc rfl; have G1 := dG .zsc rfl; have G2 := dG .lsc rfl
  have F3 := dF .rss; have F4 := dF .zcs; have F5 := dF .lcs; have F6 := dF .rsc; have F7 := dF .zcc; have F8 := dF .lcc; have F9 := dF .rcs; have FA := dF .zss; have FB := dF .lss
  have G3 := dG .rss; have G4 := dG .zcs; have G5 := dG .lcs; have G6 := dG .rsc; have G7 := dG .zcc; have G8 := dG .lcc; have G9 := dG .rcs; have GA := dG .zss; have GB := dG .lss
  simp only [Ctx.has, hl1] at F3 F4 F5 F6 F7 F8 F9 FA FB G3 G4 G5 G6 G7 G8 G9 GA GB
  unfold pairing
  by_cases e : m = 1
  · simp only [e, if_true, mixF, true_and, pairArray, h31, hl1, hl2]
    by_cases h3 : xf.lthreed <;> cases hl : lasym <;> simp [h3, hl] at F3 F4 F5 F6 F7 F8 F9 FA FB G3 G4 G5 G6 G7 G8 G9 GA GB ⊢ <;> simp [*] <;> grind
  · simp only [e, if_false, false_and, one_mul]
    by_cases h3 : xf.lthreed <;> cases hl : lasym <;> simp [h3, hl] at F3 F4 F5 F6 F7 F8 F9 FA FB G3 G4 G5 G6 G7 G8 G9 GA GB ⊢ <;> simp [*] <;> ring

/-- the hypotheses of `C101_virtual_work_partial` in a run with three threads -/
example : ∃ R : Int → Ranges, Team 3 11 true R ∧ isThread 3 1 ∧ (R 1).nsMinF ≤ 5 ∧ 5 < (R 1).nsMaxF := by
  obtain ⟨R, h⟩ := C01_team_exists 3 11 true (by decide) (by decide) (by decide)
  have f := team_facts (by decide) (by decide) h (t := 1) ⟨by decide, by decide⟩
  have e1 : splitMin (numSurfacesToDistribute 11 true) 3 1 = 4 := by decide
  have e2 : splitMax (numSurfacesToDistribute 11 true) 3 1 = 8 := by decide
  exact ⟨R, h, ⟨by decide, by decide⟩, by omega, by omega⟩

/-- **C101** (gradient, fails): the force that the code attributes to the state is not the gradient with respect to the state: there are a physical force and a displacement of the state such that the work of the physical force on
    the displaced geometry is not the scalar product of the two. One thread, three surfaces, surface 1, `m = 1`, `n = 1`: `√2` times the value. (The comment of `Evaluate` in `pybind_vmec.cc` calls it the gradient.) -/
theorem C101_gradient_fails :
    ∃ (R : Int → Ranges) (pf δ : State), Team 1 3 false R ∧ owns (R 0) 1 ∧
      let xf := forceCtx 2 1 false 3 (R 0)
      let xg := geometryCtx 2 1 false 3 (R 0)
      ∀ dstF dstX : State,
        pairing true false (fun c => pf c (xf.idx 1 1 1)) (fun c => physicalGeometry xg (scalxc xg) δ dstX c (xg.idx 1 1 1)) ≠
          pairing true false (fun c => m1Constraint xf (1 / Real.sqrt 2) none (decomposeInto xf (scalxc xf) pf dstF) c (xf.idx 1 1 1)) (fun c => δ c (xg.idx 1 1 1)) := by
  obtain ⟨R, h⟩ := C01_team_exists 1 3 false (by decide) (by decide) (by decide)
  have f := team_facts (by decide) (by decide) h (t := 0) ⟨by decide, by decide⟩
  have e1 : splitMin (numSurfacesToDistribute 3 false) 1 0 = 0 := by decide
  have e2 : splitMax (numSurfacesToDistribute 3 false) 1 0 = 2 := by decide
  have ow : owns (R 0) 1 := ⟨by omega, by omega⟩
  refine ⟨R, fun c _ => if c = .rss then 1 else 0, fun c _ => if c = .rss then 1 else 0, h, ow, ?_⟩
  intro xf xg dstF dstX hbad
  have hw := C101_virtual_work_partial (mpol := 2) (ntor := 1) (lasym := false) (by decide) (by decide) h (t := 0) ⟨by decide, by decide⟩ (by decide) (scalxc xg) (fun c _ => if c = .rss then 1 else 0) dstF
    (fun c _ => if c = .rss then 1 else 0) dstX ow.1 ow.2 (m := 1) (n := 1) (by decide) (by decide) (by decide) (by decide)
  simp only at hw
  have h3 : (forceCtx 2 1 false 3 (R 0)).lthreed = true := rfl
  rw [h3] at hw
  rw [hw] at hbad
  -- the force on the state
  have col := congrFun (m1_col xf (by show (2 : Int) ≤ 2; decide) (1 / Real.sqrt 2) none (decomposeInto xf (scalxc xf) (fun c _ => if c = .rss then 1 else 0) dstF) 1 1 1 (by decide) (by show (1 : Int) < 2; decide) (by decide) (by show (1 : Int) ≤ 1; decide)) F.rss
  rw [if_pos ⟨⟨ow.1, ow.2⟩, rfl⟩] at col
  have jB : (1 : Int) < xf.jMaxIncludingBoundary := by
    show (1 : Int) < if (R 0).nsMaxF1 = 3 then 3 else (R 0).nsMaxF
    split_ifs <;> omega
  have isM : xf.isMode 1 1 := ⟨by decide, by show (1 : Int) < 2; decide, by decide, by show (1 : Int) ≤ 1; decide⟩
  have d1 := decompose_has xf (scalxc xf) (fun c _ => if c = .rss then 1 else 0) dstF 1 1 1 ow.1 jB isM .rss rfl
  have d2 := decompose_has xf (scalxc xf) (fun c _ => if c = .rss then 1 else 0) dstF 1 1 1 ow.1 jB isM .zcs rfl
  have hsc : scalxc xf ((1 - xf.nsMinF1) * 2 + (1 : Int).tmod 2) ≠ 0 := by
    have hmin : xf.nsMinF1 = 0 := by show (R 0).nsMinF1 = 0; omega
    have hns : xf.ns = 3 := rfl
    unfold scalxc
    rw [hmin, hns, if_neg (by decide)]
    refine one_div_ne_zero (ne_of_gt (lt_max_of_lt_right (Real.sqrt_pos.2 (by norm_num))))
  have h3' : xf.lthreed = true := rfl
  simp only [mixF, h3', if_true] at col
  rw [d1, d2] at col
  simp only [if_true, reduceCtorEq, if_false, one_mul, zero_mul, add_zero] at col
  have hcx : scalxc xg = scalxc xf := rfl
  rw [hcx] at hbad
  unfold pairing at hbad
  simp [pairArray, -one_div] at hbad
  rw [show (forceCtx 2 1 false 3 (R 0)) = xf from rfl, col] at hbad
  have hs : Real.sqrt 2 * (1 / Real.sqrt 2) = 1 := by field_simp
  have h1 : (1 : ℝ) / Real.sqrt 2 = 1 := by
    have : scalxc xf ((1 - xf.nsMinF1) * 2 + (1 : Int).tmod 2) * 1 = scalxc xf ((1 - xf.nsMinF1) * 2 + (1 : Int).tmod 2) * (1 / Real.sqrt 2) := by
      rw [← hbad, mul_left_comm, hs]
    exact (mul_left_cancel₀ hsc this).symm
  rw [h1, mul_one] at hs
  have := Real.sq_sqrt (show (0 : ℝ) ≤ 2 by norm_num)
  rw [hs] at this
  norm_num at this

/-! ## the remaining steps -/

theorem zeroZ_col (x : Ctx) (hM : 2 ≤ x.mpol) (s : State) (j m n : Int) (hm : 0 ≤ m) (hm' : m < x.mpol) (hn : 0 ≤ n) (hn' : n ≤ x.ntor) (c : F) :
    zeroZForceForM1 x s c (x.idx j m n) = if (x.nsMin ≤ j ∧ j < x.nsMax) ∧ m = 1 ∧ ((c = .zcs ∧ x.lthreed = true) ∨ (c = .zcc ∧ x.lasym = true)) then 0 else s c (x.idx j m n) := by
  have h := grid3 (lo := x.nsMin) (hi := x.nsMax) (j0 := x.nsMin) (mpol := x.mpol) (ntor := x.ntor) (mlo := 1) (mhi := 1 + 1) (nlo := 0) (nhi := x.ntor + 1) (by omega) (by omega) (by omega) (by omega)
    (fun j m n s => if m = 1 then zeroZBody x j n s else fun c i => if i = fcIdx x.nsMin x.mpol x.ntor j m n then (if (c = .zcs ∧ x.lthreed = true) ∨ (c = .zcc ∧ x.lasym = true) then 0 else s c i) else s c i)
    (fun j m n v c => if (c = .zcs ∧ x.lthreed = true) ∨ (c = .zcc ∧ x.lasym = true) then 0 else v c)
    (by
      intro j m n s i
      by_cases e : m = 1
      · subst e; simp only [if_true]
        funext c
        unfold zeroZBody Ctx.idx
        by_cases h3 : x.lthreed <;> by_cases hl : x.lasym <;> cases c <;> by_cases hi : i = fcIdx x.nsMin x.mpol x.ntor j 1 n <;> simp [put_apply, h3, hl, hi]
      · simp only [e, if_false]; funext c; split <;> rfl)
    s j m n hm hm' hn hn'
  simp only [forRange_single, if_true] at h
  have h2 := congrFun h c
  beta_reduce at h2
  unfold zeroZForceForM1
  rw [Ctx.idx, h2]
  by_cases hj : x.nsMin ≤ j ∧ j < x.nsMax
  · by_cases e : m = 1
    · subst e
      rw [if_pos ⟨hj, by omega, by omega⟩]
      simp only [hj, true_and, and_self]
    · rw [if_neg (fun h => e (by omega)), if_neg (fun h => e h.2.1)]
  · rw [if_neg (fun h => hj h.1), if_neg (fun h => hj h.1)]

/-- **C101** (gauge): fixing the gauge removes exactly the second force of the `m = 1` pairs on the surfaces of the thread, and nothing else. -/
theorem C101_gauge (x : Ctx) (hM : 2 ≤ x.mpol) (s : State) (j m n : Int) (h : x.isMode m n) (hj : x.nsMin ≤ j) (hj' : j < x.nsMax) (c : F) (hc : x.has c = true) :
    ((m = 1 ∧ (c = .zcs ∨ c = .zcc)) → zeroZForceForM1 x s c (x.idx j m n) = 0) ∧ (¬ (m = 1 ∧ (c = .zcs ∨ c = .zcc)) → zeroZForceForM1 x s c (x.idx j m n) = s c (x.idx j m n)) := by
  rw [zeroZ_col x hM s j m n h.1 h.2.1 h.2.2.1 h.2.2.2 c]
  constructor
  · rintro ⟨rfl, rfl | rfl⟩
    · exact if_pos ⟨⟨hj, hj'⟩, rfl, Or.inl ⟨rfl, hc⟩⟩
    · exact if_pos ⟨⟨hj, hj'⟩, rfl, Or.inr ⟨rfl, hc⟩⟩
  · intro hne
    exact if_neg fun h => hne ⟨h.2.1, h.2.2.imp And.left And.left⟩

/-- value of the force on the state in terms of the physical force `v` of the same mode, before the gauge: sum and difference over `√2` for the pairs with `m = 1` -/
noncomputable def stateForce (m : Int) (v : F → ℝ) : F → ℝ
  | .rss => if m = 1 then (v .rss + v .zcs) / Real.sqrt 2 else v .rss
  | .zcs => if m = 1 then (v .rss - v .zcs) / Real.sqrt 2 else v .zcs
  | .rsc => if m = 1 then (v .rsc + v .zcc) / Real.sqrt 2 else v .rsc
  | .zcc => if m = 1 then (v .rsc - v .zcc) / Real.sqrt 2 else v .zcc
  | c => v c

/-- **C101** (force on the state): what `update` makes of the physical force on a surface of the thread. `R` and `Z` modes outside the resolution of the geometry are zero; the second force of the `m = 1` pairs is zero if the gauge is
    fixed (on request, or the last `Z` residual below `1e-6`, or in the first iteration); all else is the physical force times `scalxc`, with the `m = 1` pairs combined. -/
theorem C101_force (x : Ctx) (hM : 2 ≤ x.mpol) (sc : Int → ℝ) (mg ng : Int) (hm : 1 ≤ mg) (hm' : mg ≤ x.mpol) (hn : 0 ≤ ng) (hn' : ng ≤ x.ntor) (fix : Bool) (fsqz : ℝ) (iter2 : Int) (pf dst : State) (j m n : Int) (h : x.isMode m n)
    (hj : x.nsMin ≤ j) (hj' : j < x.nsMax) (hF : x.nsMax ≤ x.ns) (c : F) (hc : x.has c = true) :
    let out := decomposedForce x sc mg ng fix fsqz iter2 pf dst c (x.idx j m n)
    ((mg ≤ m ∨ ng < n) ∧ c ∉ [F.lsc, F.lcs, F.lcc, F.lss] → out = 0) ∧
      ((fix = true ∨ fsqz < 1e-6 ∨ iter2 < 2) ∧ m = 1 ∧ (c = .zcs ∨ c = .zcc) → out = 0) ∧
      (¬ ((mg ≤ m ∨ ng < n) ∧ c ∉ [F.lsc, F.lcs, F.lcc, F.lss]) → ¬ ((fix = true ∨ fsqz < 1e-6 ∨ iter2 < 2) ∧ m = 1 ∧ (c = .zcs ∨ c = .zcc)) →
        out = stateForce m (fun c => pf c (x.idx j m n) * sc ((j - x.nsMinF1) * 2 + m.tmod 2)) c) := by
  intro out
  have hB : j < x.jMaxIncludingBoundary := by unfold Ctx.jMaxIncludingBoundary; split_ifs <;> omega
  have d := decompose_has x sc pf dst j m n hj hB h
  have col := congrFun (m1_col x hM (1 / Real.sqrt 2) none (decomposeInto x sc pf dst) j m n h.1 h.2.1 h.2.2.1 h.2.2.2) c
  have hmx : (x.nsMin ≤ j ∧ j < x.m1Max none) := ⟨hj, hj'⟩
  simp only [hmx, true_and, and_self] at col
  have gfix : fixM1Gauge fix fsqz iter2 ↔ (fix = true ∨ fsqz < 1e-6 ∨ iter2 < 2) := by
    unfold fixM1Gauge; norm_num
  have hout : out = if (mg ≤ m ∨ ng < n) ∧ c ∉ [F.lsc, F.lcs, F.lcc, F.lss] then 0 else
      if (fix = true ∨ fsqz < 1e-6 ∨ iter2 < 2) ∧ m = 1 ∧ (c = .zcs ∨ c = .zcc) then 0 else m1Constraint x (1 / Real.sqrt 2) none (decomposeInto x sc pf dst) c (x.idx j m n) := by
    show decomposedForce x sc mg ng fix fsqz iter2 pf dst c (x.idx j m n) = _
    unfold decomposedForce
    rw [C48_step_exact x mg ng hm hm' hn hn' _ j m n h hj hj' (fun _ => hF) c hc]
    refine if_congr Iff.rfl rfl ?_
    by_cases g : fixM1Gauge fix fsqz iter2
    · rw [if_pos g]
      have zg := C101_gauge x hM (m1Constraint x (1 / Real.sqrt 2) none (decomposeInto x sc pf dst)) j m n h hj hj' c hc
      by_cases e : m = 1 ∧ (c = .zcs ∨ c = .zcc)
      · rw [if_pos ⟨gfix.1 g, e⟩, zg.1 e]
      · rw [if_neg (fun h => e h.2), zg.2 e]
    · rw [if_neg g, if_neg (fun h => g (gfix.2 h.1))]
  refine ⟨fun a => by rw [hout, if_pos a], fun a => ?_, fun a b => ?_⟩
  · rw [hout]; split_ifs <;> first | rfl | contradiction
  · rw [hout, if_neg a, if_neg b, col]
    by_cases e : m = 1
    · rw [if_pos e]
      subst e
      cases c <;> simp only [Ctx.has] at hc <;> simp only [mixF, stateForce, hc, if_true] <;> first | exact d _ hc | exact d _ rfl | skip
      · rw [d .rss hc, d .zcs hc, mul_one_div]
      · rw [d .rsc hc, d .zcc hc, mul_one_div]
      · rw [d .rss hc, d .zcs hc, mul_one_div]
      · rw [d .rsc hc, d .zcc hc, mul_one_div]
    · rw [if_neg e, d c hc]
      cases c <;> simp [stateForce, e]

/-- a thread with the surfaces 4 to 7 of eleven, reduced resolution of the geometry -/
example : ∃ x : Ctx, 2 ≤ x.mpol ∧ x.isMode 1 2 ∧ x.nsMin ≤ 5 ∧ 5 < x.nsMax ∧ x.nsMax ≤ x.ns ∧ x.has .zcs = true ∧ (2 : Int) ≤ x.mpol ∧ (1 : Int) ≤ x.ntor :=
  ⟨forceCtx 4 2 false 11 ⟨4, 8, 3, 9, 3, 8, 4, 8, 8⟩, by simp [Ctx.isMode, Ctx.has, Ctx.lthreed, forceCtx]⟩

/-- the force `m = 1` of the pairs scaled by `a` and `b` -/
def scalePair (x : Ctx) (a b : ℝ) (v : F → ℝ) : F → ℝ
  | .rss => if x.lthreed then v .rss * a else v .rss
  | .zcs => if x.lthreed then v .zcs * b else v .zcs
  | .rsc => if x.lasym then v .rsc * a else v .rsc
  | .zcc => if x.lasym then v .zcc * b else v .zcc
  | c => v c

theorem m1Prec_col (x : Ctx) (hM : 2 ≤ x.mpol) (ard brd azd bzd : Int → ℝ) (s : State) (j m n : Int) (hm : 0 ≤ m) (hm' : m < x.mpol) (hn : 0 ≤ n) (hn' : n ≤ x.ntor) :
    (fun c => applyM1Preconditioner x ard brd azd bzd s c (x.idx j m n)) =
      if (x.nsMin ≤ j ∧ j < x.nsMax) ∧ m = 1 then
        scalePair x ((ard ((j - x.nsMin) * 2 + 1) + brd ((j - x.nsMin) * 2 + 1)) / (ard ((j - x.nsMin) * 2 + 1) + brd ((j - x.nsMin) * 2 + 1) + azd ((j - x.nsMin) * 2 + 1) + bzd ((j - x.nsMin) * 2 + 1)))
          ((azd ((j - x.nsMin) * 2 + 1) + bzd ((j - x.nsMin) * 2 + 1)) / (ard ((j - x.nsMin) * 2 + 1) + brd ((j - x.nsMin) * 2 + 1) + azd ((j - x.nsMin) * 2 + 1) + bzd ((j - x.nsMin) * 2 + 1))) (fun c => s c (x.idx j m n))
      else fun c => s c (x.idx j m n) := by
  unfold applyM1Preconditioner
  by_cases hq : x.lthreed = false ∧ x.lasym = false
  · rw [if_pos hq]
    split_ifs
    · funext c; cases c <;> simp [scalePair, hq.1, hq.2]
    · rfl
  · rw [if_neg hq]
    have h := grid3 (lo := x.nsMin) (hi := x.nsMax) (j0 := x.nsMin) (mpol := x.mpol) (ntor := x.ntor) (mlo := 1) (mhi := 1 + 1) (nlo := 0) (nhi := x.ntor + 1) (by omega) (by omega) (by omega) (by omega)
      (fun j m n s => if m = 1 then m1PrecBody x ard brd azd bzd j n s else fun c i => if i = fcIdx x.nsMin x.mpol x.ntor j m n then
        scalePair x ((ard ((j - x.nsMin) * 2 + 1) + brd ((j - x.nsMin) * 2 + 1)) / (ard ((j - x.nsMin) * 2 + 1) + brd ((j - x.nsMin) * 2 + 1) + azd ((j - x.nsMin) * 2 + 1) + bzd ((j - x.nsMin) * 2 + 1)))
          ((azd ((j - x.nsMin) * 2 + 1) + bzd ((j - x.nsMin) * 2 + 1)) / (ard ((j - x.nsMin) * 2 + 1) + brd ((j - x.nsMin) * 2 + 1) + azd ((j - x.nsMin) * 2 + 1) + bzd ((j - x.nsMin) * 2 + 1))) (fun c => s c i) c else s c i)
      (fun j m n v => scalePair x ((ard ((j - x.nsMin) * 2 + 1) + brd ((j - x.nsMin) * 2 + 1)) / (ard ((j - x.nsMin) * 2 + 1) + brd ((j - x.nsMin) * 2 + 1) + azd ((j - x.nsMin) * 2 + 1) + bzd ((j - x.nsMin) * 2 + 1)))
          ((azd ((j - x.nsMin) * 2 + 1) + bzd ((j - x.nsMin) * 2 + 1)) / (ard ((j - x.nsMin) * 2 + 1) + brd ((j - x.nsMin) * 2 + 1) + azd ((j - x.nsMin) * 2 + 1) + bzd ((j - x.nsMin) * 2 + 1))) v)
      (by
        intro j m n s i
        by_cases e : m = 1
        · subst e; simp only [if_true]
          funext c
          unfold m1PrecBody Ctx.idx scalePair
          by_cases h3 : x.lthreed <;> by_cases hl : x.lasym <;> cases c <;> by_cases hi : i = fcIdx x.nsMin x.mpol x.ntor j 1 n <;> simp [put_apply, h3, hl, hi]
        · simp only [e, if_false]; funext c; split <;> rfl)
      s j m n hm hm' hn hn'
    simp only [forRange_single, if_true] at h
    rw [Ctx.idx, h]
    have e1 : (1 ≤ m ∧ m < 1 + 1) ↔ m = 1 := by omega
    have h2 : (0 ≤ n ∧ n < x.ntor + 1) ↔ True := by simp; omega
    simp only [e1, h2, and_true]

/-- **C101** (scaling of the `m = 1` pairs): the two forces of a pair are multiplied by two weights that depend on the surface only; they add up to one and, for coefficients of one sign that are not all zero, lie between 0 and 1.
    Everything else is left alone. -/
theorem C101_m1_weights (x : Ctx) (hM : 2 ≤ x.mpol) (ard brd azd bzd : Int → ℝ) (s : State) (j : Int) (hj : x.nsMin ≤ j) (hj' : j < x.nsMax) (k : Int) (hk : k = (j - x.nsMin) * 2 + 1)
    (ha : 0 ≤ ard k) (hb : 0 ≤ brd k) (hc : 0 ≤ azd k) (hd : 0 ≤ bzd k) (hne : ard k + brd k + azd k + bzd k ≠ 0) :
    ∃ wR wZ : ℝ, wR + wZ = 1 ∧ 0 ≤ wR ∧ 0 ≤ wZ ∧ wR * (azd k + bzd k) = wZ * (ard k + brd k) ∧ ∀ m n, x.isMode m n → ∀ c, x.has c = true →
      applyM1Preconditioner x ard brd azd bzd s c (x.idx j m n) =
        s c (x.idx j m n) * if m = 1 ∧ (c = .rss ∨ c = .rsc) then wR else if m = 1 ∧ (c = .zcs ∨ c = .zcc) then wZ else 1 := by
  have hpos : 0 < ard k + brd k + azd k + bzd k := lt_of_le_of_ne (by positivity) (Ne.symm hne)
  refine ⟨(ard k + brd k) / (ard k + brd k + azd k + bzd k), (azd k + bzd k) / (ard k + brd k + azd k + bzd k), ?_, by positivity, by positivity, by field_simp, fun m n h c hc => ?_⟩
  · rw [← add_div, div_eq_one_iff_eq hne]; ring
  · have := congrFun (m1Prec_col x hM ard brd azd bzd s j m n h.1 h.2.1 h.2.2.1 h.2.2.2) c
    beta_reduce at this
    rw [this, ← hk]
    by_cases e : m = 1
    · rw [if_pos ⟨⟨hj, hj'⟩, e⟩]
      cases c <;> simp_all [scalePair, Ctx.has]
    · rw [if_neg fun h => e h.2]
      simp [e]

/-- weights of a surface where the `R` coefficients are three times the `Z` ones -/
example : (forceCtx 3 2 true 11 ⟨4, 8, 3, 9, 3, 8, 4, 8, 8⟩).isMode 1 2 ∧ (0 : ℝ) ≤ 3 ∧ (3 : ℝ) + 0 + 1 + 0 ≠ 0 := by
  refine ⟨?_, by norm_num, by norm_num⟩
  unfold Ctx.isMode forceCtx; decide

theorem lambdaPrec_col (x : Ctx) (lp : Int → ℝ) (s : State) (j m n : Int) (hm : 0 ≤ m) (hm' : m < x.mpol) (hn : 0 ≤ n) (hn' : n ≤ x.ntor) (c : F) :
    applyLambdaPreconditioner x lp s c (x.idx j m n) = if (x.nsMin ≤ j ∧ j < x.jMaxIncludingBoundary) ∧ isLambda c = true ∧ x.has c = true then s c (x.idx j m n) * lp (x.idx j m n) else s c (x.idx j m n) := by
  have h := grid3 (lo := x.nsMin) (hi := x.jMaxIncludingBoundary) (j0 := x.nsMin) (mpol := x.mpol) (ntor := x.ntor) (mlo := 0) (mhi := x.mpol) (nlo := 0) (nhi := x.ntor + 1) (by omega) (by omega) (by omega) (by omega)
    (fun j m n s => lambdaPrecBody x lp j m n s)
    (fun j m n v c => if isLambda c = true ∧ x.has c = true then v c * lp (fcIdx x.nsMin x.mpol x.ntor j m n) else v c)
    (by
      intro j m n s i
      funext c
      unfold lambdaPrecBody Ctx.idx
      by_cases h3 : x.lthreed <;> by_cases hl : x.lasym <;> cases c <;> by_cases hi : i = fcIdx x.nsMin x.mpol x.ntor j m n <;> simp [put_apply, h3, hl, hi, isLambda, Ctx.has])
    s j m n hm hm' hn hn'
  have h2 := congrFun h c
  beta_reduce at h2
  unfold applyLambdaPreconditioner
  rw [Ctx.idx, h2]
  by_cases hj : x.nsMin ≤ j ∧ j < x.jMaxIncludingBoundary
  · rw [if_pos ⟨hj, ⟨hm, hm'⟩, hn, by omega⟩]
    simp only [hj, and_self, true_and]
  · rw [if_neg (fun h => hj h.1), if_neg (fun h => hj h.1)]

/-- **C101** (scaling of the `λ` forces): every `λ` harmonic on a surface of the thread, including the boundary, is multiplied once by the entry of the preconditioner of its mode and surface; `R` and `Z` are left alone. -/
theorem C101_lambda_scaling (x : Ctx) (lp : Int → ℝ) (s : State) (j m n : Int) (h : x.isMode m n) (hj : x.nsMin ≤ j) (hj' : j < x.nsMax ∨ (j < x.ns ∧ x.nsMaxF1 = x.ns)) (hns : x.nsMax ≤ x.ns) (c : F) (hc : x.has c = true) :
    (isLambda c = true → applyLambdaPreconditioner x lp s c (x.idx j m n) = s c (x.idx j m n) * lp (((j - x.nsMin) * x.mpol + m) * (x.ntor + 1) + n)) ∧
      (isLambda c = false → applyLambdaPreconditioner x lp s c (x.idx j m n) = s c (x.idx j m n)) := by
  rw [lambdaPrec_col x lp s j m n h.1 h.2.1 h.2.2.1 h.2.2.2 c]
  have hB : j < x.jMaxIncludingBoundary := by unfold Ctx.jMaxIncludingBoundary; split_ifs <;> omega
  constructor
  · intro hl
    rw [if_pos ⟨⟨hj, hB⟩, hl, hc⟩]; rfl
  · intro hl
    exact if_neg fun h => by simp [hl] at h

/-! ## norm of the state -/

theorem rzNormBody_eq (x : Ctx) (off : Bool) (s : State) (j m n : Int) (a : ℝ) :
    rzNormBody x off s j m n a = a + (rPower x.lthreed x.lasym (fun c => if c = .rcc ∧ ¬ (0 < n ∨ 0 < m ∨ off = true) then 0 else s c (x.idx j m n)) +
      zPower x.lthreed x.lasym (fun c => if c = .zcc ∧ ¬ (0 < n ∨ 0 < m ∨ off = true) then 0 else s c (x.idx j m n))) := by
  unfold rzNormBody rPower zPower power4
  by_cases h3 : x.lthreed <;> by_cases hl : x.lasym <;> by_cases h : 0 < n ∨ 0 < m ∨ off = true <;> simp [h3, hl, h] <;> ring

/-- **C101** (norm): the sum over the threads of the norm that divides the preconditioned residuals counts every surface once, axis and boundary included: it is the sum of the squares of all `R` and `Z` harmonics of the state
    except the position `m = n = 0` of the surfaces. -/
theorem C101_norm {nt ns mpol ntor : Int} {lfreeb lasym : Bool} {R : Int → Ranges} (hns : 2 ≤ ns) (hnt : 1 ≤ nt) (hT : Team nt ns lfreeb R) (s : Int → State) (G : F → Int → Int → Int → ℝ)
    (hG : ∀ t, isThread nt t → ∀ j m n c, (R t).nsMinF1 ≤ j → j < (R t).nsMaxF1 → 0 ≤ m → m < mpol → 0 ≤ n → n ≤ ntor → s t c (((j - (R t).nsMinF1) * mpol + m) * (ntor + 1) + n) = G c j m n) :
    let h3 := decide (0 < ntor)
    ∑ t ∈ Finset.Ico 0 nt, localForceNorm1 (geometryCtx mpol ntor lasym ns (R t)) (R t) (s t) =
      ∑ j ∈ Finset.Ico 0 ns, (modeSum mpol ntor (fun m n => rPower h3 lasym (fun c => G c j m n) + zPower h3 lasym (fun c => G c j m n)) -
        if 0 < mpol ∧ 0 ≤ ntor then G .rcc j 0 0 ^ 2 + (if lasym then G .zcc j 0 0 ^ 2 else 0) else 0) := by
  intro h3
  have hn : 0 ≤ numSurfacesToDistribute ns lfreeb := n_nonneg (by omega)
  have key : ∀ t ∈ Finset.Ico 0 nt, localForceNorm1 (geometryCtx mpol ntor lasym ns (R t)) (R t) (s t) = ∑ j ∈ Finset.Ico (R t).nsMinF (R t).nsMaxFIncludingLcfs,
      modeSum mpol ntor (fun m n => rPower h3 lasym (fun c => G c j m n) + zPower h3 lasym (fun c => G c j m n) - if m = 0 then (if n = 0 then G .rcc j 0 0 ^ 2 + (if lasym then G .zcc j 0 0 ^ 2 else 0) else 0) else 0) := by
    intro t ht
    have ht' : isThread nt t := Finset.mem_Ico.1 ht
    have ff := team_facts hns hnt hT ht'
    have hl := ff.2.2.2.2.2.2.2.2.2
    have b := split_le hn (by omega : 0 < nt) ht'.2
    have a := split_nonneg hn (by omega : 0 < nt) ht'.1
    have hN : numSurfacesToDistribute ns lfreeb ≤ ns := by unfold numSurfacesToDistribute; split_ifs <;> omega
    unfold localForceNorm1 rzNorm
    simp only [rzNormBody_eq, forRange_add, zero_add]
    refine Finset.sum_congr rfl fun j hj => Finset.sum_congr rfl fun m hm => Finset.sum_congr rfl fun n hn => ?_
    obtain ⟨j0, j1⟩ := Finset.mem_Ico.1 hj
    obtain ⟨m0, m1⟩ := Finset.mem_Ico.1 hm
    obtain ⟨n0, n1⟩ := Finset.mem_Ico.1 hn
    have j2 : (R t).nsMinF1 ≤ j := by omega
    have j3 : j < (R t).nsMaxF1 := by rw [hl] at j1; split_ifs at j1 <;> omega
    have e : ∀ c, s t c ((geometryCtx mpol ntor lasym ns (R t)).idx j m n) = G c j m n := fun c => hG t ht' j m n c j2 j3 m0 m1 n0 (by
      have : (geometryCtx mpol ntor lasym ns (R t)).ntor = ntor := rfl
      omega)
    have l1 : (geometryCtx mpol ntor lasym ns (R t)).lthreed = h3 := rfl
    have l2 : (geometryCtx mpol ntor lasym ns (R t)).lasym = lasym := rfl
    simp only [e, l1, l2]
    by_cases em : m = 0
    · by_cases en : n = 0
      · subst em; subst en
        unfold rPower zPower power4
        cases h3 <;> cases lasym <;> simp <;> ring
      · have : 0 < n ∨ 0 < m ∨ false = true := by omega
        rw [if_pos em, if_neg en, sub_zero]
        simp only [this, not_true, and_false, if_false]
    · have : 0 < n ∨ 0 < m ∨ false = true := by omega
      rw [if_neg em, sub_zero]
      simp only [this, not_true, and_false, if_false]
  rw [Finset.sum_congr rfl key, rows_sum hns hnt hT]
  refine Finset.sum_congr rfl fun j _ => ?_
  unfold modeSum
  simp only [Finset.sum_sub_distrib]
  congr 1
  by_cases hm : 0 < mpol
  · rw [Finset.sum_eq_single_of_mem 0 (Finset.mem_Ico.2 ⟨le_rfl, hm⟩) (fun m _ hne => by simp [hne])]
    simp only [if_true]
    by_cases hn' : 0 ≤ ntor
    · rw [Finset.sum_eq_single_of_mem 0 (Finset.mem_Ico.2 ⟨le_rfl, by omega⟩) (fun n _ hne => by simp [hne])]
      simp [hm, hn']
    · rw [Finset.Ico_eq_empty (by omega)]
      simp [hn']
  · rw [Finset.Ico_eq_empty (by omega)]
    simp [hm]

end Verif.Coeffs
