import Verif.Contin.Props

/-!
# Property C56: does the Python interpolation do what the solver does between multigrid steps?

`_radial_interpolate_geometry` is documented (`_continuation.py:108-113`) to reproduce "the radial
interpolation VMEC++ performs internally between multi-grid steps". The full statement would be

`∀ no nn m row j, geomRow no nn m row j` = the coefficient the solver's `nextStep` computes from `row`.

It holds on all surfaces that both grids share, on the axis, and for data constant in the interpolated
variable (`C56_agree_partial`); it is false in general (`C56_differs`), because the solver interpolates
linearly in `s` and the Python code linearly in `sqrt(s)`.
-/
namespace Verif.Contin
open Verif Verif.Fourier Verif.Multigrid Verif.Coeffs Verif.Partition

/-- **C56, proved part**: agreement on shared surfaces, on the axis, and everywhere for even-m coefficients
    that are constant and odd-m coefficients proportional to `sqrt(s)`. Missing: all other surfaces and data,
    where the two differ (`C56_differs`). -/
theorem C56_agree_partial (x : Setup) (lfreeb : Bool) (h : x.Good lfreeb) (dec fresh init : Store)
    (G : F → Int → Int → Int → ℝ)
    (hG : Holds x.nt_old x.rOld x.mpol x.ntor (x.ctxOld 0).has dec G) :
    ∃ s G', nextStep x dec fresh init = .ok s ∧
      Holds x.nt_new x.rNew x.mpol x.ntor (x.ctxNew 0).has s G' ∧
      (∀ c m n a b, 1 ≤ a → a < x.ns_old → 1 ≤ b → b < x.ns_new → b * (x.ns_old - 1) = a * (x.ns_new - 1) →
        geomRow x.ns_old x.ns_new m (fun i => G c i m n) b = G' c b m n) ∧
      (∀ c m n, geomRow x.ns_old x.ns_new m (fun i => G c i m n) 0 = G' c 0 m n) ∧
      (∀ c m n α, m % 2 = 0 → (∀ i, 0 ≤ i → i < x.ns_old → G c i m n = α) → ∀ j, 0 ≤ j → j < x.ns_new →
        geomRow x.ns_old x.ns_new m (fun i => G c i m n) j = G' c j m n) ∧
      (∀ c m n α, m % 2 = 1 → (∀ i, 1 ≤ i → i < x.ns_old → G c i m n = α * Real.sqrt (pos x.ns_old i)) →
        ∀ j, 0 ≤ j → j < x.ns_new →
        geomRow x.ns_old x.ns_new m (fun i => G c i m n) j = G' c j m n) := by
  have hno := h.old.2.1
  have hnn := h.new.2.1
  obtain ⟨s, G', r, g, k1, k2⟩ := C45_kept_surfaces x lfreeb h dec fresh init G hG
  obtain ⟨s2, r2, g2⟩ := step_spec h dec fresh init G hG
  refine ⟨s2, _, r2, g2, ?_, ?_, ?_, ?_⟩
  · intro c m n a b a0 a1 b0 b1 hab
    rw [geomRow_surface (by omega) (by omega) _ a0 a1 b0 hab]
    have hp : pos x.ns_new b = pos x.ns_old a := by
      unfold pos
      rw [div_eq_div_iff (ns_pos hnn).ne' (ns_pos hno).ne']
      exact_mod_cast hab
    have hsum := stencil_exact x.scheme hno hnn (by omega) b1 (by omega) a1 hp (fun i => coarse x.ns_old G c i m n)
    beta_reduce at hsum
    unfold fine
    rw [hsum, if_neg (by omega)]
    unfold coarse
    rw [if_neg (by omega)]
    rcases Int.emod_two_eq_zero_or_one m with he | ho
    · rw [oddScale_even he, oddScale_even he, div_one, mul_one]
    · rw [oddScale_pos_eq (by omega) ho, oddScale_pos_eq (by omega) ho, hp]
      have : 0 < pos x.ns_old a := by
        have := pos_lt hno (show (0 : Int) < a by omega)
        have z : pos x.ns_old 0 = 0 := by simp [pos]
        linarith
      have := (Real.sqrt_pos.2 this).ne'
      field_simp
  · intro c m n
    rw [geomRow_axis (by omega)]
    rcases Int.emod_two_eq_zero_or_one m with he | ho
    · rw [if_neg (by omega)]
      have hp : pos x.ns_new 0 = pos x.ns_old 0 := by simp [pos]
      have hsum := stencil_exact x.scheme hno hnn (le_refl 0) (by omega) (le_refl 0) (by omega) hp
        (fun i => coarse x.ns_old G c i m n)
      beta_reduce at hsum
      unfold fine
      rw [hsum, if_neg (by omega)]
      unfold coarse
      rw [if_neg (by omega), oddScale_even he, oddScale_even he, div_one, mul_one]
    · rw [if_pos ho]
      unfold fine
      rw [if_pos ⟨rfl, ho⟩]
  · intro c m n α he hα j j0 j1
    have lhs : geomRow x.ns_old x.ns_new m (fun i => G c i m n) j = α := by
      obtain ⟨q1, q2⟩ := geomRow_range (nn := x.ns_new) (j := j) (by omega : 2 ≤ x.ns_old) (fun i => G c i m n) he α α
        (fun a a0 a1 => by rw [hα a a0 a1]; exact ⟨le_refl _, le_refl _⟩)
      exact le_antisymm q2 q1
    rw [lhs]
    unfold fine
    rw [if_neg (by omega), oddScale_even he, div_one]
    have := stencil_affine x.scheme hno hnn j0 j1 α 0 (fun i => coarse x.ns_old G c i m n) (fun i i0 i1 => by
      unfold coarse
      rw [if_neg (by omega), oddScale_even he, mul_one, hα i i0 i1]; ring)
    beta_reduce at this
    rw [this]; ring
  · intro c m n α ho hα j j0 j1
    have hc1 : ∀ i, 1 ≤ i → i < x.ns_old → G c i m n * (1 / Real.sqrt (pos x.ns_old i)) = α := by
      intro i i0 i1
      have hp : 0 < pos x.ns_old i := by
        have := pos_lt hno (show (0 : Int) < i by omega)
        have z : pos x.ns_old 0 = 0 := by simp [pos]
        linarith
      rw [hα i i0 i1]
      have := (Real.sqrt_pos.2 hp).ne'
      field_simp
    have hs := stencil_affine x.scheme hno hnn j0 j1 α 0 (fun i => coarse x.ns_old G c i m n) (fun i i0 i1 => by
      unfold coarse
      by_cases hz : i = 0
      · rw [if_pos ⟨hz, ho⟩, oddScale_pos_eq (by omega) ho, oddScale_pos_eq (by omega) ho,
          hc1 1 (by omega) (by omega), hc1 2 (by omega) (by omega)]; ring
      · rw [if_neg (by omega), oddScale_pos_eq (by omega) ho, hc1 i (by omega) i1]; ring)
    beta_reduce at hs
    unfold fine
    rw [hs]
    unfold geomRow
    dsimp only
    simp only [ho, and_true, true_and, if_true]
    by_cases hz : j = 0
    · rw [if_pos hz, if_pos hz]
    · rw [if_neg hz, if_neg hz, if_pos hno]
      have hv := npInterp_affine (n := x.ns_old) (by omega) (fun i => Real.sqrt (linspace x.ns_old i))
        (upd (fun i => G c i m n * scale x.ns_old i) 0 (2 * (G c 1 m n * scale x.ns_old 1) - G c 2 m n * scale x.ns_old 2))
        (fun i k i0 ik _ => sqrt_lt (by omega) i0 ik) α 0 (Real.sqrt (linspace x.ns_new j))
        (fun i i0 i1 => by
          have e : ∀ i, 1 ≤ i → i < x.ns_old → G c i m n * scale x.ns_old i = α := fun i i0 i1 => by
            rw [scale_eq i0]; exact hc1 i i0 i1
          by_cases hi : i = 0
          · subst hi
            rw [upd_same, e 1 (by omega) (by omega), e 2 (by omega) (by omega)]; ring
          · rw [upd_ne _ _ hi, e i (by omega) i1]; ring)
        (by rw [linspace_zero]; simp [Real.sqrt_nonneg])
        (by rw [linspace_last (by omega)]; exact Real.sqrt_le_sqrt (linspace_le_one (by omega) j1))
      rw [hv, oddScale_pos_eq (by omega) ho, scale_eq (by omega), zero_mul, zero_mul]
      rfl

/-- `np.interp` on the nodes `sqrt(s)` of three surfaces at `s = 1/4` -/
theorem interp_three (fp : Int → ℝ) :
    npInterp 3 (fun i => Real.sqrt (linspace 3 i)) fp (Real.sqrt (linspace 5 1))
      = (fp 1 - fp 0) * Real.sqrt (1 / 2) + fp 0 := by
  have e1 : linspace 3 1 = 1 / 2 := by unfold linspace; norm_num
  have e5 : linspace 5 1 = 1 / 4 := by unfold linspace; norm_num
  have h5 : Real.sqrt (linspace 5 1) = 1 / 2 := by
    rw [e5, show (1 / 4 : ℝ) = (1 / 2) ^ 2 by norm_num, Real.sqrt_sq (by norm_num)]
  have hr : (1 / 2 : ℝ) < Real.sqrt (1 / 2) := by
    apply Real.lt_sqrt_of_sq_lt; norm_num
  have hsq : Real.sqrt (1 / 2) * Real.sqrt (1 / 2) = 1 / 2 := Real.mul_self_sqrt (by norm_num)
  rcases npInterp_spec (n := 3) (by norm_num) (fun i => Real.sqrt (linspace 3 i)) fp
    (fun i k i0 ik _ => sqrt_lt (by norm_num) i0 ik) (Real.sqrt (linspace 5 1))
    (by rw [linspace_zero]; simp [Real.sqrt_nonneg]) with ⟨a, -⟩ | ⟨j, ⟨j0, j1⟩, ⟨a1, a2⟩, e⟩
  · exfalso
    have : linspace 3 (3 - 1) = 1 := linspace_last (by norm_num)
    beta_reduce at a
    rw [this, h5, Real.sqrt_one] at a
    norm_num at a
  · have hj : j = 0 := by
      have : j = 0 ∨ j = 1 := by omega
      rcases this with h | h
      · exact h
      · exfalso
        rw [h] at a1
        beta_reduce at a1
        rw [e1, h5] at a1
        linarith
    rw [e, hj]
    beta_reduce
    rw [linspace_zero, Real.sqrt_zero, h5, show (0 : Int) + 1 = 1 from rfl, e1]
    have hp : Real.sqrt (1 / 2) ≠ 0 := by linarith
    have hd : (fp 1 - fp 0) / (Real.sqrt (1 / 2) - 0) * (1 / 2 - 0) = (fp 1 - fp 0) * Real.sqrt (1 / 2) := by
      rw [sub_zero, sub_zero, div_mul_eq_mul_div, div_eq_iff hp, mul_assoc, hsq]
    rw [hd]

/-- **C56 is false in general.** From three to five surfaces, for any thread teams and any scheme setting (with
    three old surfaces the solver always interpolates linearly): for an even-m coefficient with the values
    0, 1, 0 on the old surfaces the solver's value on the first new surface is `1/2`, the Python value is
    `sqrt(1/2)`. -/
theorem C56_differs (x : Setup) (lfreeb : Bool) (h : x.Good lfreeb) (h3 : x.ns_old = 3) (h5 : x.ns_new = 5)
    (dec fresh init : Store) (G : F → Int → Int → Int → ℝ)
    (hG : Holds x.nt_old x.rOld x.mpol x.ntor (x.ctxOld 0).has dec G) (c : F) (m n : Int) (he : m % 2 = 0)
    (g0 : G c 0 m n = 0) (g1 : G c 1 m n = 1) :
    ∃ s G', nextStep x dec fresh init = .ok s ∧
      Holds x.nt_new x.rNew x.mpol x.ntor (x.ctxNew 0).has s G' ∧
      G' c 1 m n = 1 / 2 ∧ geomRow 3 5 m (fun i => G c i m n) 1 = Real.sqrt (1 / 2) ∧
      (1 / 2 : ℝ) ≠ Real.sqrt (1 / 2) := by
  obtain ⟨s2, r2, g2⟩ := step_spec h dec fresh init G hG
  refine ⟨s2, _, r2, g2, ?_, ?_, ?_⟩
  · unfold fine
    rw [h3, h5, if_neg (by omega), linear_sum (Or.inr (by norm_num)) (by norm_num) (by norm_num) (by norm_num)
      (by norm_num) (fun i => coarse 3 G c i m n), oddScale_even he, div_one]
    have hj : js1 3 5 1 = 0 := by decide
    have hf : frac 3 5 1 = 1 / 2 := by unfold frac pos; rw [hj]; norm_num
    rw [hj, hf]
    unfold coarse
    norm_num [oddScale_even he, g0, g1, he]
  · unfold geomRow
    have hm : ¬ m % 2 = 1 := by omega
    dsimp only
    simp only [hm, if_false, false_and]
    rw [interp_three, g0, g1]; ring
  · have : (1 / 2 : ℝ) < Real.sqrt (1 / 2) := by apply Real.lt_sqrt_of_sq_lt; norm_num
    exact this.ne

/-- **The extrapolation to the axis does not match the variable either**: an odd-m coefficient equal to `s`
    is, divided by `sqrt(s)`, linear in `sqrt(s)`, the variable in which the Python code interpolates; still it
    is not reproduced inside the first old interval, because the axis value is extrapolated linearly in the
    surface index. -/
theorem C56_sqrt_linear_lost :
    geomRow 3 5 1 (fun i => linspace 3 i) 1 = 3 / 2 * (Real.sqrt 2 - 1) * (1 / 2) ∧
      geomRow 3 5 1 (fun i => linspace 3 i) 1 ≠ linspace 5 1 := by
  have e1 : linspace 3 1 = 1 / 2 := by unfold linspace; norm_num
  have e2 : linspace 3 2 = 1 := by unfold linspace; norm_num
  have e5 : linspace 5 1 = 1 / 4 := by unfold linspace; norm_num
  have h5 : Real.sqrt (1 / 4) = 1 / 2 := by
    rw [show (1 / 4 : ℝ) = (1 / 2) ^ 2 by norm_num, Real.sqrt_sq (by norm_num)]
  have hr : Real.sqrt (1 / 2) = Real.sqrt 2 / 2 := by
    rw [show (1 / 2 : ℝ) = 2 / 2 ^ 2 by norm_num, Real.sqrt_div (by norm_num), Real.sqrt_sq (by norm_num)]
  have h2 : Real.sqrt 2 * Real.sqrt 2 = 2 := Real.mul_self_sqrt (by norm_num)
  have key : geomRow 3 5 1 (fun i => linspace 3 i) 1 = 3 / 2 * (Real.sqrt 2 - 1) * (1 / 2) := by
    unfold geomRow
    dsimp only
    have hodd : (1 : Int) % 2 = 1 := by decide
    have h13 : (3 : Int) ≤ 3 := le_refl _
    have h10 : ¬ (1 : Int) = 0 := by decide
    simp only [hodd, h13, h10, if_true, if_false, and_self]
    rw [interp_three, upd_same, upd_ne _ _ (by norm_num), scale_eq (by norm_num),
      scale_eq (ns := 3) (j := 2) (by norm_num), scale_eq (ns := 5) (by norm_num), e1, e2, e5, h5, hr, Real.sqrt_one]
    have hp : Real.sqrt 2 ≠ 0 := by positivity
    field_simp
    nlinarith
  refine ⟨key, ?_⟩
  rw [key, e5]
  intro h
  have : Real.sqrt 2 = 4 / 3 := by linarith
  rw [this] at h2
  norm_num at h2

/-! ## concrete cases -/

/-- a source of resolution `mpol = 2`, `ntor = 1`, five field periods, three surfaces -/
noncomputable def demoOut : Output where
  input := ⟨false, 2, 1, [3], 5⟩
  wout := ⟨5, 3, 2, 1, 5, stateModeTable 2 1 5,
    [("rmnc", some ⟨5, 3, fun i j => 10 * (i : ℝ) + j⟩), ("rmns", none)],
    [("raxis_cc", some ⟨2, fun i => (i : ℝ) + 1⟩)], [("extcur", ⟨3, fun _ => 1⟩)]⟩

theorem demoOut_ok : WellFormed demoOut.wout := by
  refine ⟨by decide, by decide, by decide, by decide, rfl, by decide, ?_, ?_⟩
  · intro f hf v hv
    have : f = ("rmnc", some ⟨5, 3, fun i j => 10 * (i : ℝ) + j⟩) ∨ f = ("rmns", none) := by
      simpa [demoOut] using hf
    rcases this with rfl | rfl
    · cases hv; exact ⟨rfl, rfl⟩
    · cases hv
  · intro f hf v hv
    have : f = ("raxis_cc", some ⟨2, fun i => (i : ℝ) + 1⟩) := by simpa [demoOut] using hf
    rw [this] at hv
    cases hv; rfl

/-- continuation to more modes on a finer radial grid -/
example : ∃ o, interpolateSolution demoOut ⟨false, 3, 2, [5], 5⟩ = .ok o ∧ WellFormed o.wout ∧ o.wout.ns = 5 := by
  obtain ⟨o, e, -, w, n, -⟩ := C38_carries_solution demoOut ⟨false, 3, 2, [5], 5⟩ 5 demoOut_ok
    ⟨rfl, by norm_num, by norm_num, by norm_num⟩
  exact ⟨o, e, w, n⟩

/-- up and down again -/
example : ∃ o o', interpolateSolution demoOut ⟨false, 3, 2, [3], 5⟩ = .ok o ∧
    interpolateSolution o ⟨false, 2, 1, [3], 5⟩ = .ok o' := by
  obtain ⟨o, o', e, e', -⟩ := C38_roundtrip demoOut ⟨false, 3, 2, [3], 5⟩ ⟨false, 2, 1, [3], 5⟩ demoOut_ok
    ⟨rfl, by decide, by decide, by decide⟩ ⟨rfl, by decide, by decide, by decide⟩ (by decide) (by decide) rfl rfl
  exact ⟨o, o', e, e'⟩

/-- the target has one field period, the source five -/
example : ∃ o, interpolateSolution demoOut ⟨false, 2, 1, [3], 1⟩ = .ok o ∧ o.input.nfp = 1 ∧ o.wout.nfp = 5 := by
  obtain ⟨o, e, -, n, -, n', -⟩ := C38_nfp_and_lasym_not_checked demoOut ⟨false, 2, 1, [3], 5⟩ 3 1 false demoOut_ok
    ⟨rfl, by decide, by decide, by decide⟩
  exact ⟨o, e, n, n'⟩

/-- a solver that refuses unacceptable guesses and otherwise returns an output without arrays -/
noncomputable def demoRun (base _spec : HotRestart.RunSpec) (s : Step) (g : Option Output) : Outcome Output := by
  classical
  exact if Acceptable base s g then
    .ok ⟨stepSpec base s, ⟨5, s.ns, s.mpol, s.ntor, (stateModeTable s.mpol s.ntor 5).length,
      stateModeTable s.mpol s.ntor 5, [], [], []⟩⟩
  else .status "rejected"

example : ∃ o s', runSteps (demoRun demoOut.input) demoOut.input
    [⟨3, 2, 1, 1, 10⟩, ⟨5, 4, 1, 1, 10⟩, ⟨9, 3, 2, 1, 10⟩] (some demoOut) = .ok (some o) ∧ s' = o.wout.ns ∧ s' = 9 := by
  obtain ⟨out, e, h⟩ := C38_driver (demoRun demoOut.input) demoOut.input
    (fun s g hs ha => ⟨⟨stepSpec demoOut.input s, ⟨5, s.ns, s.mpol, s.ntor, (stateModeTable s.mpol s.ntor 5).length,
      stateModeTable s.mpol s.ntor 5, [], [], []⟩⟩, by unfold demoRun; rw [if_pos ha],
      ⟨hs.2.1, hs.2.2, by norm_num, hs.1, rfl, rfl,
        fun f (hf : f ∈ []) => (by cases hf), fun f (hf : f ∈ []) => (by cases hf)⟩, rfl, rfl, rfl⟩)
    [⟨3, 2, 1, 1, 10⟩, ⟨5, 4, 1, 1, 10⟩, ⟨9, 3, 2, 1, 10⟩]
    (by simp [Step.Ok]) (some demoOut) (fun o h => by cases h; exact demoOut_ok)
  obtain ⟨o, rfl, -, n, -⟩ := h _ rfl
  exact ⟨o, _, e, rfl, n⟩

/-- three and five surfaces on one thread -/
def demo35 : Setup where
  mpol := 3
  ntor := 1
  lasym := false
  ns_old := 3
  ns_new := 5
  nt_old := 1
  nt_new := 1
  rOld := fun t => match adjustRadialPartitioning 1 t 3 false with | .ok r => r | _ => ⟨0,0,0,0,0,0,0,0,0⟩
  rNew := fun t => match adjustRadialPartitioning 1 t 5 false with | .ok r => r | _ => ⟨0,0,0,0,0,0,0,0,0⟩
  scheme := .linear

theorem demo35_good : demo35.Good false := by
  refine ⟨by decide, by decide, by decide, ⟨by decide, by decide, by decide, ?_⟩, ⟨by decide, by decide, by decide, ?_⟩⟩
  · intro t ht
    have ht' : 0 ≤ t ∧ t < 1 := ht
    have : t = 0 := by omega
    subst this; decide
  · intro t ht
    have ht' : 0 ≤ t ∧ t < 1 := ht
    have : t = 0 := by omega
    subst this; decide

example : ∃ dec s G', nextStep demo35 dec (fun _ => 0) (fun _ => 7) = .ok s ∧
    Holds demo35.nt_new demo35.rNew demo35.mpol demo35.ntor (demo35.ctxNew 0).has s G' ∧
    G' .rcc 1 0 0 ≠ geomRow 3 5 0 (fun i => if i = 1 then 1 else 0) 1 := by
  obtain ⟨dec, hd⟩ := exists_state demo35 (fun _ j _ _ => if j = 1 then 1 else 0)
  obtain ⟨s, G', h1, h2, h3, h4, h5⟩ := C56_differs demo35 false demo35_good rfl rfl dec (fun _ => 0) (fun _ => 7)
    _ hd .rcc 0 0 (by norm_num) (by norm_num) (by norm_num)
  exact ⟨dec, s, G', h1, h2, by rw [h3, h4]; exact h5⟩

end Verif.Contin
