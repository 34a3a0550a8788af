import Verif.Profiles.RadialLemmas
import Verif.Kernels.Model

/-! # C102: the radial profile arrays

All statements are about the solver object after the loop of `InitializeRadial` over the threads. -/
namespace Verif.Profiles
open Verif Verif.Partition

theorem half_pos (ns j : Int) : ((j : ℝ) + 0.5) / ((ns : ℝ) - 1) = sHalf ns j := by unfold sHalf; norm_num
theorem full_pos (ns j : Int) : (j : ℝ) / ((ns : ℝ) - 1) = sFull ns j := rfl

theorem arr (I : RadialIn) {r : Ranges} (flip : Bool) (s : RadialArrays)
    (h : r.nsMinH = r.nsMinF1 ∧ r.nsMaxH = r.nsMaxF1 - 1 ∧ 0 ≤ r.nsMinF1 ∧ r.nsMinF1 + 2 ≤ r.nsMaxF1 ∧ r.nsMaxF1 ≤ I.ns) : ArraysSpec I r flip (evalArrays I r flip s) :=
  evalArrays_spec I r flip s h.1 h.2.1 h.2.2.1 h.2.2.2.1 h.2.2.2.2

/-- **C102** half grid: every thread that holds the half-grid surface `j` has there the square root of the position,
    the derivative of the enclosed toroidal flux, the profiles read at the flux label of the position, the poloidal
    flux derivative `iota * phi'` and the current scaled by `Itor`; `flip` reverses `iota` and `chi'` -/
theorem C102_half_grid (I : RadialIn) (flip lfreeb : Bool) (nt : Int) (R : Int → Ranges) (v : Solver) (hns : 2 ≤ I.ns)
    (hnt : 1 ≤ nt) (hT : Team nt I.ns lfreeb R) (ha : poly I.aphi 1 ≠ 0) (t : Int) (ht : isThread nt t) (j : Int)
    (hj : holdsHalf (R t) j) :
    let a := (initProfiles I flip nt R v).p t
    let k := j - (R t).nsMinH
    let σ : ℝ := if flip then -1 else 1
    a.sqrtSH k = Real.sqrt (sHalf I.ns j) ∧
    a.phipH k = deriv I.phi (sHalf I.ns j) ∧
    a.iotaH k = σ * I.iotaP (I.label (sHalf I.ns j)) ∧
    a.chipH k = a.iotaH k * a.phipH k ∧
    a.currH k = I.Itor * I.currP (I.label (sHalf I.ns j)) ∧
    a.massH k = I.massP (I.label (min (sHalf I.ns j) I.spres_ped)) * (|deriv I.phi (sHalf I.ns j)| * I.r00) ^ I.gamma := by
  intro a k σ
  have ea : a = evalArrays I (R t) flip (v.p t) := (init_threads I flip nt (by omega) R v).1 t ht
  obtain ⟨H, _, _, _⟩ := arr I flip (v.p t) (team_ranges hns hnt hT ht)
  obtain ⟨h1, h2, h3, h4, h5, h6⟩ := H j hj.1 hj.2
  rw [← ea] at h1 h2 h3 h4 h5 h6
  simp only [half_pos, label_eq, phip_eq I ha] at h1 h2 h3 h4 h5 h6
  have hp : maxToroidalFlux I.aphi I.signOfJacobian I.phiedge * I.polfluxDeriv (sHalf I.ns j) =
      I.iotaP (I.label (sHalf I.ns j)) * deriv I.phi (sHalf I.ns j) := by
    rw [← phip_eq I ha, RadialIn.polfluxDeriv, label_eq]; ring
  refine ⟨h1, h2, ?_, ?_, ?_, h6⟩
  · rw [h4]; simp only [σ]; cases flip <;> simp
  · rw [h3, h4, h2, hp]; cases flip <;> simp
  · rw [h5, mul_comm]

/-- **C102** full grid; the factor out of the odd modes is the inverse of the square root of the position, and on the
    axis the factor of the first surface -/
theorem C102_full_grid (I : RadialIn) (flip lfreeb : Bool) (nt : Int) (R : Int → Ranges) (v : Solver) (hns : 2 ≤ I.ns)
    (hnt : 1 ≤ nt) (hT : Team nt I.ns lfreeb R) (ha : poly I.aphi 1 ≠ 0) (t : Int) (ht : isThread nt t) (j : Int)
    (hj : holds (R t) j) :
    let a := (initProfiles I flip nt R v).p t
    let k := j - (R t).nsMinF1
    a.sqrtSF k = Real.sqrt (sFull I.ns j) ∧
    a.phipF k = deriv I.phi (sFull I.ns j) ∧
    a.iotaF k = I.iotaP (I.label (sFull I.ns j)) ∧
    a.chipF k = a.iotaF k * a.phipF k ∧
    a.radialBlending k = 2 * I.pDamp * (1 - sFull I.ns j) ∧
    a.scalxc (2 * k) = 1 ∧
    (0 < j → a.scalxc (2 * k + 1) * a.sqrtSF k = 1) ∧
    (j = 0 → a.scalxc (2 * k + 1) * Real.sqrt (sFull I.ns 1) = 1) := by
  intro a k
  have ea : a = evalArrays I (R t) flip (v.p t) := (init_threads I flip nt (by omega) R v).1 t ht
  obtain ⟨_, H, _, _⟩ := arr I flip (v.p t) (team_ranges hns hnt hT ht)
  obtain ⟨h1, h2, h3, h4, h5, h6, h7⟩ := H j hj.1 hj.2
  rw [← ea] at h1 h2 h3 h4 h5 h6 h7
  simp only [full_pos, label_eq, phip_eq I ha] at h1 h2 h3 h4 h5 h6 h7
  have hp : maxToroidalFlux I.aphi I.signOfJacobian I.phiedge * I.polfluxDeriv (sFull I.ns j) =
      I.iotaP (I.label (sFull I.ns j)) * deriv I.phi (sFull I.ns j) := by
    rw [← phip_eq I ha, RadialIn.polfluxDeriv, label_eq]; ring
  have hn : (0 : ℝ) < (I.ns : ℝ) - 1 := by
    have : (2 : ℝ) ≤ (I.ns : ℝ) := by exact_mod_cast hns
    linarith
  have h1' : (1 : ℝ) / ((I.ns : ℝ) - 1) = sFull I.ns 1 := by simp [sFull]
  have hs1 : 0 < Real.sqrt (sFull I.ns 1) := Real.sqrt_pos.2 (by rw [← h1']; positivity)
  rw [h1'] at h7
  refine ⟨h1, h2, h4, by rw [h3, h4, h2, hp], h5, h6, fun h0 => ?_, fun h0 => ?_⟩
  · have hle : Real.sqrt (sFull I.ns 1) ≤ Real.sqrt (sFull I.ns j) := by
      apply Real.sqrt_le_sqrt
      have : (1 : ℝ) ≤ (j : ℝ) := by exact_mod_cast (by omega : (1 : Int) ≤ j)
      rw [← h1']
      exact div_le_div_of_nonneg_right this hn.le
    rw [h7, h1, max_eq_left hle, one_div, inv_mul_cancel₀ (by linarith : Real.sqrt (sFull I.ns j) ≠ 0)]
  · have : sFull I.ns j = 0 := by rw [h0]; simp [sFull]
    rw [h7, this, Real.sqrt_zero, max_eq_right hs1.le, one_div, inv_mul_cancel₀ hs1.ne']

/-- **C102** staggering factors: `sm` and `sp` take the square root of the position from the outer and the inner
    full-grid neighbour to the half-grid surface; their squares do not depend on the number of surfaces; next to the
    axis `sp` is `sm` -/
theorem C102_staggering (I : RadialIn) (flip lfreeb : Bool) (nt : Int) (R : Int → Ranges) (v : Solver) (hns : 2 ≤ I.ns)
    (hnt : 1 ≤ nt) (hT : Team nt I.ns lfreeb R) (t : Int) (ht : isThread nt t) (j : Int) (hj : holdsHalf (R t) j) :
    let a := (initProfiles I flip nt R v).p t
    let k := j - (R t).nsMinH
    a.sm k * Real.sqrt (sFull I.ns (j + 1)) = Real.sqrt (sHalf I.ns j) ∧
    (0 < j → a.sp k * Real.sqrt (sFull I.ns j) = Real.sqrt (sHalf I.ns j)) ∧
    (j = 0 → a.sp k = a.sm k) ∧
    a.sm k ^ 2 = (2 * j + 1) / (2 * j + 2) ∧ (0 < j → a.sp k ^ 2 = (2 * j + 1) / (2 * j)) ∧
    0 < a.sm k ∧ a.sm k < 1 ∧ 0 < a.sp k := by
  intro a k
  have ea : a = evalArrays I (R t) flip (v.p t) := (init_threads I flip nt (by omega) R v).1 t ht
  obtain ⟨_, _, H, _⟩ := arr I flip (v.p t) (team_ranges hns hnt hT ht)
  obtain ⟨h1, h2, h3⟩ := H j hj.1 hj.2
  rw [← ea] at h1 h2 h3
  have g := team_ranges hns hnt hT ht
  have hj0 : 0 ≤ j := by have := hj.1; omega
  have hjr : (0 : ℝ) ≤ (j : ℝ) := by exact_mod_cast hj0
  have hn : (0 : ℝ) < (I.ns : ℝ) - 1 := by
    have : (2 : ℝ) ≤ (I.ns : ℝ) := by exact_mod_cast hns
    linarith
  have e1 : ((j : ℝ) + 0.5) / ((I.ns : ℝ) - 1) = sHalf I.ns j := half_pos _ _
  have e2 : ((j + 1 : Int) : ℝ) / ((I.ns : ℝ) - 1) = sFull I.ns (j + 1) := rfl
  rw [e1] at h1 h2
  rw [e2] at h1
  rw [full_pos] at h2
  have ph : 0 < sHalf I.ns j := by unfold sHalf; positivity
  have po : 0 < sFull I.ns (j + 1) := by unfold sFull; push_cast; positivity
  have qh := Real.sqrt_pos.2 ph
  have qo := Real.sqrt_pos.2 po
  have sm2 : a.sm k ^ 2 = (2 * j + 1) / (2 * j + 2) := by
    rw [h1, div_pow, Real.sq_sqrt ph.le, Real.sq_sqrt po.le]
    unfold sHalf sFull; push_cast
    field_simp
  have smp : 0 < a.sm k := by rw [h1]; positivity
  refine ⟨by rw [h1, div_mul_cancel₀ _ qo.ne'], fun h0 => ?_, h3, sm2, fun h0 => ?_, smp, ?_, ?_⟩
  · have hjp : (0 : ℝ) < (j : ℝ) := by exact_mod_cast h0
    have pi : 0 < sFull I.ns j := by unfold sFull; positivity
    rw [h2 h0, div_mul_cancel₀ _ (Real.sqrt_pos.2 pi).ne']
  · have hjp : (0 : ℝ) < (j : ℝ) := by exact_mod_cast h0
    have pi : 0 < sFull I.ns j := by unfold sFull; positivity
    rw [h2 h0, div_pow, Real.sq_sqrt ph.le, Real.sq_sqrt pi.le]
    unfold sHalf sFull
    field_simp
  · have : a.sm k ^ 2 < 1 := by rw [sm2, div_lt_one (by positivity)]; linarith
    nlinarith
  · by_cases h0 : 0 < j
    · have hjp : (0 : ℝ) < (j : ℝ) := by exact_mod_cast h0
      have pi : 0 < sFull I.ns j := by unfold sFull; positivity
      rw [h2 h0]; exact div_pos qh (Real.sqrt_pos.2 pi)
    · rw [h3 (by omega)]; exact smp

/-- **C102** scale of lambda: after a reset of the constants it is the root mean square of the flux derivative over the
    half grid, whatever the number of threads -/
theorem C102_lamscale (I : RadialIn) (flip lfreeb : Bool) (nt : Int) (R : Int → Ranges) (v : Solver) (hns : 2 ≤ I.ns)
    (hnt : 1 ≤ nt) (hT : Team nt I.ns lfreeb R) (ha : poly I.aphi 1 ≠ 0) :
    (initProfiles I flip nt R (resetConstants v)).lamscale =
      Real.sqrt ((∑ j ∈ Finset.Ico 0 (I.ns - 1), deriv I.phi (sHalf I.ns j) ^ 2) / (I.ns - 1)) := by
  obtain ⟨_, h1, h2⟩ := init_threads I flip nt (by omega) R (resetConstants v)
  rw [h2, h1]
  have e : ∀ t ∈ Finset.Ico 0 nt, (evalArrays I (R t) flip ((resetConstants v).p t)).local_rmsPhiP =
      localHalfSum I.ns (R t) (fun j => deriv I.phi (sHalf I.ns j) ^ 2) := by
    intro t ht
    rw [Finset.mem_Ico] at ht
    obtain ⟨_, _, _, H⟩ := arr I flip ((resetConstants v).p t) (team_ranges hns hnt hT ht)
    rw [H]
    congr 1
    funext j
    rw [half_pos, phip_eq I ha]
  rw [Finset.sum_congr rfl e, C03_integrals nt I.ns lfreeb R hns hnt hT]
  simp only [resetConstants, zero_add, mul_one_div]

/-- **C102** without a reset in between, the second initialisation finds the sum of the first: lambda is rescaled by
    the square root of two (the comment at `pybind_vmec.cc:324`) -/
theorem C102_no_reset (I : RadialIn) (flip lfreeb : Bool) (nt : Int) (R : Int → Ranges) (v : Solver) (hns : 2 ≤ I.ns)
    (hnt : 1 ≤ nt) (hT : Team nt I.ns lfreeb R) :
    let once := initProfiles I flip nt R (resetConstants v)
    (initProfiles I flip nt R once).lamscale = Real.sqrt 2 * once.lamscale ∧
    (initProfiles I flip nt R (resetConstants once)).lamscale = once.lamscale := by
  intro once
  have loc : ∀ w : Solver, ∀ t ∈ Finset.Ico 0 nt, (evalArrays I (R t) flip (w.p t)).local_rmsPhiP =
      localHalfSum I.ns (R t) (fun j => (maxToroidalFlux I.aphi I.signOfJacobian I.phiedge *
        torfluxDeriv I.aphi ((j + 0.5) / (I.ns - 1))) ^ 2) := by
    intro w t ht
    rw [Finset.mem_Ico] at ht
    exact (arr I flip (w.p t) (team_ranges hns hnt hT ht)).2.2.2
  obtain ⟨_, a1, a2⟩ := init_threads I flip nt (by omega) R (resetConstants v)
  obtain ⟨_, b1, b2⟩ := init_threads I flip nt (by omega) R once
  obtain ⟨_, c1, c2⟩ := init_threads I flip nt (by omega) R (resetConstants once)
  rw [Finset.sum_congr rfl (loc _)] at a1 b1 c1
  set S := ∑ t ∈ Finset.Ico 0 nt, localHalfSum I.ns (R t) (fun j => (maxToroidalFlux I.aphi I.signOfJacobian I.phiedge *
        torfluxDeriv I.aphi ((j + 0.5) / (I.ns - 1))) ^ 2)
  have a1' : once.rmsPhiP = S := by rw [a1]; simp [resetConstants]
  have a2' : once.lamscale = Real.sqrt (S * (1 / (I.ns - 1))) := by rw [← a1']; exact a2
  refine ⟨?_, ?_⟩
  · rw [b2, b1, a1', a2', ← Real.sqrt_mul (by norm_num)]
    congr 1; ring
  · rw [c2, c1, a2']
    simp [resetConstants]

/-- **C102**: what a thread holds does not depend on the team it belongs to: two teams of any size agree on every
    surface they hold, whatever was in the arrays before -/
theorem C102_thread_independent (I : RadialIn) (flip lfreeb : Bool) (nt nt' : Int) (R R' : Int → Ranges) (v v' : Solver)
    (hns : 2 ≤ I.ns) (hnt : 1 ≤ nt) (hnt' : 1 ≤ nt') (hT : Team nt I.ns lfreeb R) (hT' : Team nt' I.ns lfreeb R')
    (t t' : Int) (ht : isThread nt t) (ht' : isThread nt' t') :
    let a := (initProfiles I flip nt R v).p t
    let b := (initProfiles I flip nt' R' v').p t'
    (∀ j, holdsHalf (R t) j → holdsHalf (R' t') j → ∀ f ∈ [RadialArrays.sqrtSH, RadialArrays.phipH, RadialArrays.chipH,
      RadialArrays.iotaH, RadialArrays.currH, RadialArrays.massH, RadialArrays.sm, RadialArrays.sp],
      f a (j - (R t).nsMinH) = f b (j - (R' t').nsMinH)) ∧
    (∀ j, holds (R t) j → holds (R' t') j → (∀ f ∈ [RadialArrays.sqrtSF, RadialArrays.phipF, RadialArrays.chipF,
      RadialArrays.iotaF, RadialArrays.radialBlending], f a (j - (R t).nsMinF1) = f b (j - (R' t').nsMinF1)) ∧
      ∀ p, (p = 0 ∨ p = 1) → a.scalxc (2 * (j - (R t).nsMinF1) + p) = b.scalxc (2 * (j - (R' t').nsMinF1) + p)) := by
  intro a b
  have ea : a = evalArrays I (R t) flip (v.p t) := (init_threads I flip nt (by omega) R v).1 t ht
  have eb : b = evalArrays I (R' t') flip (v'.p t') := (init_threads I flip nt' (by omega) R' v').1 t' ht'
  obtain ⟨H, F, S, _⟩ := arr I flip (v.p t) (team_ranges hns hnt hT ht)
  obtain ⟨H', F', S', _⟩ := arr I flip (v'.p t') (team_ranges hns hnt' hT' ht')
  rw [← ea] at H F S
  rw [← eb] at H' F' S'
  have g := team_ranges hns hnt hT ht
  refine ⟨fun j hj hj' f hf => ?_, fun j hj hj' => ⟨fun f hf => ?_, fun p hp => ?_⟩⟩
  · obtain ⟨h1, h2, h3, h4, h5, h6⟩ := H j hj.1 hj.2
    obtain ⟨k1, k2, k3, k4, k5, k6⟩ := H' j hj'.1 hj'.2
    obtain ⟨s1, s2, s3⟩ := S j hj.1 hj.2
    obtain ⟨q1, q2, q3⟩ := S' j hj'.1 hj'.2
    simp only [List.mem_cons, List.not_mem_nil, or_false] at hf
    rcases hf with rfl | rfl | rfl | rfl | rfl | rfl | rfl | rfl
    · rw [h1, k1]
    · rw [h2, k2]
    · rw [h3, k3]
    · rw [h4, k4]
    · rw [h5, k5]
    · rw [h6, k6]
    · rw [s1, q1]
    · by_cases h0 : 0 < j
      · rw [s2 h0, q2 h0]
      · have := hj.1
        have hz : j = 0 := by omega
        rw [s3 hz, q3 hz, s1, q1]
  · obtain ⟨h1, h2, h3, h4, h5, h6, h7⟩ := F j hj.1 hj.2
    obtain ⟨k1, k2, k3, k4, k5, k6, k7⟩ := F' j hj'.1 hj'.2
    simp only [List.mem_cons, List.not_mem_nil, or_false] at hf
    rcases hf with rfl | rfl | rfl | rfl | rfl
    · rw [h1, k1]
    · rw [h2, k2]
    · rw [h3, k3]
    · rw [h4, k4]
    · rw [h5, k5]
  · obtain ⟨h1, h2, h3, h4, h5, h6, h7⟩ := F j hj.1 hj.2
    obtain ⟨k1, k2, k3, k4, k5, k6, k7⟩ := F' j hj'.1 hj'.2
    rcases hp with rfl | rfl
    · rw [add_zero, add_zero, h6, k6]
    · rw [h7, k7]

/-! ## current -/

/-- **C102** current: when the profile at the edge exceeds the threshold, the scaled profile at the edge is
    `sign * mu0 * curtor / 2 pi`, and a factor on the profile changes nothing as long as the threshold is exceeded.
    Missing: profiles below the threshold, see `C102_current_dropped`. -/
theorem C102_current_partial (I : RadialIn) (he : |I.eps * I.curtor| < |I.currP 1|) :
    I.Itor * I.currP 1 = I.signOfJacobian * (I.mu0 * I.curtor) / (2 * Real.pi) ∧
    ∀ c : ℝ, |I.eps * I.curtor| < |c * I.currP 1| → ∀ x,
      ({ I with currP := fun x => c * I.currP x } : RadialIn).Itor * (c * I.currP x) = I.Itor * I.currP x := by
  have h0 : I.currP 1 ≠ 0 := by
    intro h; rw [h, abs_zero] at he; exact absurd he (not_lt.2 (abs_nonneg _))
  have hpi := Real.pi_ne_zero
  refine ⟨?_, fun c hc x => ?_⟩
  · unfold RadialIn.Itor
    rw [if_pos he]; field_simp
  · have hc0 : c ≠ 0 := by
      intro h; rw [h, zero_mul, abs_zero] at hc; exact absurd hc (not_lt.2 (abs_nonneg _))
    unfold RadialIn.Itor
    simp only
    rw [if_pos hc, if_pos he]
    field_simp

/-- F98: the threshold compares the profile, which is free up to a factor, with the current in amperes: with ten mega-amperes
    and the constant profile `1e-9` the current is dropped without a message, and a thousand times larger profile gives
    the full current -/
theorem C102_current_dropped (I : RadialIn) (hI : I.curtor = 10 ^ 7) (he : I.eps = 1 / 2 ^ (52 : ℕ))
    (hs : I.signOfJacobian = -1) (hm : 0 < I.mu0) :
    (∀ x, ({ I with currP := fun _ => 1 / 10 ^ 9 } : RadialIn).Itor * x = 0) ∧
    ({ I with currP := fun _ => 1 / 10 ^ 6 } : RadialIn).Itor * (1 / 10 ^ 6) = - (I.mu0 * 10 ^ 7) / (2 * Real.pi) ∧
    - (I.mu0 * 10 ^ 7) / (2 * Real.pi) ≠ 0 := by
  have hpi := Real.pi_pos
  refine ⟨fun x => ?_, ?_, ?_⟩
  · unfold RadialIn.Itor
    simp only
    rw [hI, he, if_neg, zero_mul]
    rw [abs_of_pos (by norm_num), abs_of_pos (by norm_num)]; norm_num
  · unfold RadialIn.Itor
    simp only
    rw [hI, he, hs, if_pos]
    · field_simp
    · rw [abs_of_pos (by norm_num), abs_of_pos (by norm_num)]; norm_num
  · have : 0 < I.mu0 * 10 ^ 7 / (2 * Real.pi) := by positivity
    rw [neg_div, ne_eq, neg_eq_zero]
    exact this.ne'

/-! ## mass -/

/-- **C102** pressure pedestal: outside `spres_ped` the pressure is the one at `spres_ped`; for `gamma = 0` the mass
    profile is the pressure -/
theorem C102_pedestal (I : RadialIn) (flip lfreeb : Bool) (nt : Int) (R : Int → Ranges) (v : Solver) (hns : 2 ≤ I.ns)
    (hnt : 1 ≤ nt) (hT : Team nt I.ns lfreeb R) (ha : poly I.aphi 1 ≠ 0) (hg : I.gamma = 0) (t : Int) (ht : isThread nt t)
    (j : Int) (hj : holdsHalf (R t) j) :
    ((initProfiles I flip nt R v).p t).massH (j - (R t).nsMinH) =
      if sHalf I.ns j ≤ I.spres_ped then I.massP (I.label (sHalf I.ns j)) else I.massP (I.label I.spres_ped) := by
  have := (C102_half_grid I flip lfreeb nt R v hns hnt hT ha t ht j hj).2.2.2.2.2
  rw [this, hg, Real.rpow_zero, mul_one]
  split_ifs with h
  · rw [min_eq_left h]
  · rw [min_eq_right (le_of_not_ge h)]

/-! ## the full grid is not flipped -/

/-- F99: when the poloidal angle is reversed, `iota` and `chi'` change sign on the half grid only: with a constant
    profile the two grids hold opposite values -/
theorem C102_flip_fails (I : RadialIn) (lfreeb : Bool) (nt : Int) (R : Int → Ranges) (v : Solver) (hns : 2 ≤ I.ns)
    (hnt : 1 ≤ nt) (hT : Team nt I.ns lfreeb R) (ha : poly I.aphi 1 ≠ 0) (ι : ℝ) (hι : I.iotaP = fun _ => ι) (t : Int)
    (ht : isThread nt t) (j i : Int) (hj : holdsHalf (R t) j) (hi : holds (R t) i) :
    ((initProfiles I true nt R v).p t).iotaH (j - (R t).nsMinH) = -ι ∧
    ((initProfiles I true nt R v).p t).iotaF (i - (R t).nsMinF1) = ι := by
  have a := (C102_half_grid I true lfreeb nt R v hns hnt hT ha t ht j hj).2.2.1
  have b := (C102_full_grid I true lfreeb nt R v hns hnt hT ha t ht i hi).2.2.1
  rw [a, b, hι]
  simp

theorem forRangeM_keeps {S : Type} {lo hi : Int} (f : Int → S → Outcome S) (P : S → Prop)
    (hf : ∀ j s s', lo ≤ j → P s → f j s = .ok s' → P s') (s s' : S) (hs : P s) (h : forRangeM lo hi f s = .ok s') : P s' := by
  have key : ∀ l : List Int, (∀ j ∈ l, lo ≤ j) → ∀ s s', P s → l.foldlM (fun s j => f j s) s = Outcome.ok s' → P s' := by
    intro l
    induction l with
    | nil => intro _ s s' hs h; cases h; exact hs
    | cons x xs ih =>
      intro hl s s' hs h
      rw [List.foldlM_cons] at h
      cases hx : f x s with
      | ok s1 =>
        rw [hx] at h
        exact ih (fun j hj => hl j (List.mem_cons_of_mem _ hj)) s1 s' (hf x s s1 (hl x (List.mem_cons_self)) hs hx) h
      | status _ => rw [hx] at h; cases h
      | abort _ => rw [hx] at h; cases h
      | throws _ => rw [hx] at h; cases h
      | ub _ => rw [hx] at h; cases h
  exact key _ (fun j hj => (mem_irange.1 hj).1) s s' hs h

theorem set_keeps {v v' : Vec ℝ} {i k : Int} {x : ℝ} (hk : k ≠ i) (h : v.set i x = .ok v') : v'.val k = v.val k := by
  unfold Vec.set at h
  split_ifs at h
  cases h
  exact upd_ne _ _ hk

theorem get_bind {β : Type} {v : Vec ℝ} {i : Int} {g : ℝ → Outcome β} {b : β} (h : (v.get i >>= g) = .ok b) :
    ∃ x, g x = .ok b := by
  cases hx : v.get i with
  | ok x => rw [hx] at h; exact ⟨x, h⟩
  | status _ => rw [hx] at h; cases h
  | abort _ => rw [hx] at h; cases h
  | throws _ => rw [hx] at h; cases h
  | ub _ => rw [hx] at h; cases h

/-- the iteration never writes `chi'` on the axis: the interpolation of `computeBContra` (`ideal_mhd_model.cc:1857-1867`)
    starts at the first surface. F100: what `wout.chipf` reports on the axis (`output_quantities.cc:4491`) is therefore the
    derivative of the initial profile, with the sign before the reversal of the angle, also when `iota` follows from the
    current (`ncurr = 1`) -/
theorem C102_axis_stale (c : Kernels.Ctx) (nt : Int) (lfreeb : Bool) (R : Int → Ranges) (hns : 2 ≤ c.ns) (hnt : 1 ≤ nt)
    (hT : Team nt c.ns lfreeb R) (t : Int) (ht : isThread nt t) (h0 : (R t).nsMinF1 = 0) (w1 w2 : ℝ)
    (chipH chipF chipF' : Vec ℝ) (hrun : Kernels.interpolateFull c (R t) w1 w2 chipH chipF = .ok chipF') :
    chipF'.val 0 = chipF.val 0 := by
  have g := team_ranges hns hnt hT ht
  obtain ⟨_, _, _, _, _, _, _, f7, _, _⟩ := team_facts hns hnt hT ht
  unfold Kernels.interpolateFull at hrun
  generalize hloop : forRangeM (R t).nsMinFi (R t).nsMaxFi _ chipF = o at hrun
  cases o with
  | ok f1 =>
    have k1 : f1.val 0 = chipF.val 0 := by
      refine forRangeM_keeps _ (fun v : Vec ℝ => v.val 0 = chipF.val 0) ?_ chipF f1 rfl hloop
      intro j s s' hj hs h
      obtain ⟨x, h⟩ := get_bind h
      obtain ⟨y, h⟩ := get_bind h
      rw [set_keeps (by omega) h, hs]
    replace hrun : (if (R t).nsMaxF1 = c.ns then _ else _) = Outcome.ok chipF' := hrun
    split_ifs at hrun with he
    · obtain ⟨x, h⟩ := get_bind hrun
      obtain ⟨y, h⟩ := get_bind h
      rw [set_keeps (by omega) h, k1]
    · cases hrun; exact k1
  | status _ => cases hrun
  | abort _ => cases hrun
  | throws _ => cases hrun
  | ub _ => cases hrun

/-! ## poloidal flux -/

theorem polflux_sum (I : RadialIn) (x : ℝ) :
    I.polflux x = (∑ i ∈ Finset.Ico (0 : Int) 101, (if i = 0 ∨ i = 100 then 0.5 else 1) * I.polfluxDeriv (i * (x / 100))) * (x / 100) := by
  unfold RadialIn.polflux
  simp only
  congr 1
  rw [forRange_congr _ (fun i (acc : ℝ) => acc + (if i = 0 ∨ i = 100 then 0.5 else 1) * I.polfluxDeriv (i * (x / 100))) _
    (fun j s _ _ => by split_ifs <;> ring), forRange_add, zero_add]

/-- **C102** poloidal flux: the quadrature is exact when the derivative is affine in the position (for instance constant
    iota with a flux of second order, or iota linear in a uniform flux) -/
theorem C102_polflux (I : RadialIn) (x a b : ℝ) (h : ∀ y, I.polfluxDeriv y = a + b * y) :
    I.polflux x = ∫ y in (0 : ℝ)..x, I.polfluxDeriv y := by
  rw [polflux_sum]
  simp only [h]
  have w0 : (∑ i ∈ Finset.Ico (0 : Int) 101, (if i = 0 ∨ i = 100 then 0.5 else 1) : ℝ) = 100 := by
    have : (∑ i ∈ Finset.Ico (0 : Int) 101, (if i = 0 ∨ i = 100 then 1 else 2) : Int) = 200 := by decide +kernel
    have := congrArg (fun z : Int => (z : ℝ) / 2) this
    push_cast at this
    rw [Finset.sum_div] at this
    rw [show (100 : ℝ) = 200 / 2 by norm_num, ← this]
    exact Finset.sum_congr rfl fun i _ => by split_ifs <;> norm_num
  have w1 : (∑ i ∈ Finset.Ico (0 : Int) 101, (if i = 0 ∨ i = 100 then 0.5 else 1) * (i : ℝ)) = 5000 := by
    have : (∑ i ∈ Finset.Ico (0 : Int) 101, (if i = 0 ∨ i = 100 then 1 else 2) * i : Int) = 10000 := by decide +kernel
    have := congrArg (fun z : Int => (z : ℝ) / 2) this
    push_cast at this
    rw [Finset.sum_div] at this
    rw [show (5000 : ℝ) = 10000 / 2 by norm_num, ← this]
    exact Finset.sum_congr rfl fun i _ => by split_ifs <;> ring
  have e : ∀ i : Int, ((if i = 0 ∨ i = 100 then 0.5 else 1) * (a + b * (i * (x / 100))) : ℝ) =
      a * (if i = 0 ∨ i = 100 then 0.5 else 1) + b * (x / 100) * ((if i = 0 ∨ i = 100 then 0.5 else 1) * (i : ℝ)) := by
    intro i; ring
  simp only [e]
  rw [Finset.sum_add_distrib, ← Finset.mul_sum, ← Finset.mul_sum, w0, w1]
  have d : ∀ y : ℝ, HasDerivAt (fun y => a * y + b / 2 * y ^ 2) (a + b * y) y := by
    intro y
    refine (((hasDerivAt_id y).const_mul a).add ((hasDerivAt_pow 2 y).const_mul (b / 2))).congr_deriv ?_
    simp; ring
  rw [intervalIntegral.integral_eq_sub_of_hasDerivAt (fun y _ => d y)
    ((by fun_prop : Continuous fun y : ℝ => a + b * y).intervalIntegrable _ _)]
  ring

/-! ## concrete cases -/

/-- the case of the examples: 11 surfaces, uniform flux, one tesla square metre, parabolic pressure, constant iota -/
noncomputable def radialExample : RadialIn :=
  { ns := 11, aphi := ⟨1, fun _ => 1⟩, phiedge := 1, signOfJacobian := -1, massP := fun x => 1 - x, iotaP := fun _ => 2,
    currP := fun x => x, curtor := 10 ^ 7, r00 := 3, spres_ped := 1 / 2, gamma := 0, pDamp := 1 / 20, mu0 := 1,
    eps := 1 / 2 ^ (52 : ℕ) }

example : ∀ y, radialExample.polfluxDeriv y = 2 + 0 * y := by
  intro y; simp [RadialIn.polfluxDeriv, radialExample, torfluxDeriv_eq]
example : poly radialExample.aphi 1 ≠ 0 := by simp [poly, radialExample]
example : ∃ R, Team 3 radialExample.ns true R := C01_team_exists 3 11 true (by decide) (by decide) (by decide)
example : |radialExample.eps * radialExample.curtor| < |radialExample.currP 1| := by
  simp only [radialExample]; rw [abs_of_pos (by norm_num), abs_of_pos (by norm_num)]; norm_num
/-- the uniform flux has `lamscale = |phiedge| / 2 pi` for every number of threads -/
example (lfreeb : Bool) (nt : Int) (R : Int → Ranges) (v : Solver) (hnt : 1 ≤ nt) (hT : Team nt 11 lfreeb R) :
    (initProfiles radialExample true nt R (resetConstants v)).lamscale = 1 / (2 * Real.pi) := by
  have ha : poly radialExample.aphi 1 ≠ 0 := by simp [poly, radialExample]
  rw [C102_lamscale radialExample true lfreeb nt R v (by decide) hnt hT ha]
  have hd : ∀ x, deriv radialExample.phi x = -1 / (2 * Real.pi) := by
    intro x
    have : radialExample.phi = fun x => (-1 / (2 * Real.pi)) * x := by
      funext y; simp [RadialIn.phi, radialExample, fluxPoly, poly]
    rw [this, deriv_const_mul_field]; simp
  simp only [hd]
  have hpi := Real.pi_pos
  have e : (((∑ j ∈ Finset.Ico 0 (radialExample.ns - 1), (-1 / (2 * Real.pi)) ^ 2 : ℝ)) / ((radialExample.ns : ℝ) - 1)) =
      (1 / (2 * Real.pi)) ^ 2 := by
    simp only [radialExample, Finset.sum_const, Int.card_Ico]
    rw [show ((11 : Int) - 1 - 0).toNat = 10 from rfl, nsmul_eq_mul]
    push_cast
    field_simp
    norm_num
  rw [e, Real.sqrt_sq (by positivity)]

end Verif.Profiles
