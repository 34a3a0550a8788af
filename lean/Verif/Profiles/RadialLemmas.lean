import Verif.Profiles.RadialSpec
import Verif.Partition.Props
import Mathlib.Tactic.FieldSimp
import Mathlib.Tactic.Linarith
import Mathlib.Analysis.SpecialFunctions.Sqrt

/-! # C102: lemmas -/
namespace Verif.Profiles
open Verif Verif.Partition

theorem torflux_poly (c : RVec) : torflux c = fluxPoly c := by
  funext x
  rw [torflux_eq]
  unfold fluxPoly poly
  rw [Finset.mul_sum]
  refine Finset.sum_congr rfl fun k _ => ?_
  ring

theorem torfluxDeriv_deriv (c : RVec) (x : ℝ) : torfluxDeriv c x = deriv (fluxPoly c) x := by
  rw [← torflux_poly]
  exact (C30_torflux_hasDerivAt c x).deriv.symm

theorem maxFlux_eq (I : RadialIn) (h : poly I.aphi 1 ≠ 0) :
    maxToroidalFlux I.aphi I.signOfJacobian I.phiedge =
      I.signOfJacobian * I.phiedge / (2 * Real.pi) / fluxPoly I.aphi 1 := by
  have : fluxPoly I.aphi 1 = poly I.aphi 1 := by simp [fluxPoly]
  unfold maxToroidalFlux
  rw [torflux_poly, this]
  simp [h]

theorem phip_eq (I : RadialIn) (h : poly I.aphi 1 ≠ 0) (x : ℝ) :
    maxToroidalFlux I.aphi I.signOfJacobian I.phiedge * torfluxDeriv I.aphi x = deriv I.phi x := by
  rw [maxFlux_eq I h, torfluxDeriv_deriv]
  unfold RadialIn.phi
  rw [deriv_const_mul_field]

theorem label_eq (I : RadialIn) (x : ℝ) : min (torflux I.aphi x) 1 = I.label x := by
  rw [torflux_poly]; unfold RadialIn.label
  split_ifs with h
  · exact min_eq_left h
  · exact min_eq_right (le_of_not_ge h)

/-- what the half-grid loop leaves at the surface `j` -/
def HalfDone (I : RadialIn) (r : Ranges) (flip : Bool) (s : RadialArrays) (j : Int) : Prop :=
  let M := maxToroidalFlux I.aphi I.signOfJacobian I.phiedge
  let x : ℝ := (j + 0.5) / (I.ns - 1)
  let k := j - r.nsMinH
  s.sqrtSH k = Real.sqrt x ∧ s.phipH k = M * torfluxDeriv I.aphi x ∧
  s.chipH k = (if flip then M * I.polfluxDeriv x * -1 else M * I.polfluxDeriv x) ∧
  s.iotaH k = (if flip then I.iotaP (min (torflux I.aphi x) 1) * -1 else I.iotaP (min (torflux I.aphi x) 1)) ∧
  s.currH k = I.currP (min (torflux I.aphi x) 1) * I.Itor ∧
  s.massH k = I.massP (min (torflux I.aphi (min x I.spres_ped)) 1) * (|M * torfluxDeriv I.aphi x| * I.r00) ^ I.gamma

theorem half_loop (I : RadialIn) (r : Ranges) (flip : Bool) (s : RadialArrays) (h : r.nsMinH ≤ r.nsMaxH) :
    ∀ j, r.nsMinH ≤ j → j < r.nsMaxH →
      HalfDone I r flip (forRange r.nsMinH r.nsMaxH (halfBody I r flip) s) j := by
  refine forRange_inv h (halfBody I r flip) s
    (fun i (s : RadialArrays) => ∀ j, r.nsMinH ≤ j → j < i → HalfDone I r flip s j) ?_ ?_
  · intro j h1 h2; omega
  · intro i s h1 h2 ih j h3 h4
    by_cases hj : j = i
    · subst hj
      simp only [HalfDone, halfBody, upd_same, and_self]
    · have hk : j - r.nsMinH ≠ i - r.nsMinH := by omega
      have := ih j h3 (by omega)
      simpa only [HalfDone, halfBody, upd_ne _ _ hk] using this

/-- what the full-grid loop leaves at the surface `j` -/
def FullDone (I : RadialIn) (r : Ranges) (s : RadialArrays) (j : Int) : Prop :=
  let M := maxToroidalFlux I.aphi I.signOfJacobian I.phiedge
  let x : ℝ := j / (I.ns - 1)
  let k := j - r.nsMinF1
  s.sqrtSF k = Real.sqrt x ∧ s.phipF k = M * torfluxDeriv I.aphi x ∧ s.chipF k = M * I.polfluxDeriv x ∧
  s.iotaF k = I.iotaP (min (torflux I.aphi x) 1) ∧ s.radialBlending k = 2 * I.pDamp * (1 - x) ∧
  s.scalxc (2 * k) = 1 ∧ s.scalxc (2 * k + 1) = 1 / max (Real.sqrt x) (Real.sqrt (1 / (I.ns - 1)))

theorem full_loop (I : RadialIn) (r : Ranges) (s : RadialArrays) (h : r.nsMinF1 ≤ r.nsMaxF1) :
    ∀ j, r.nsMinF1 ≤ j → j < r.nsMaxF1 →
      FullDone I r (forRange r.nsMinF1 r.nsMaxF1 (fullBody I r) s) j := by
  refine forRange_inv h (fullBody I r) s
    (fun i (s : RadialArrays) => ∀ j, r.nsMinF1 ≤ j → j < i → FullDone I r s j) ?_ ?_
  · intro j h1 h2; omega
  · intro i s h1 h2 ih j h3 h4
    by_cases hj : j = i
    · subst hj
      have e1 : 2 * (j - r.nsMinF1) ≠ (j - r.nsMinF1) * 2 + 1 := by omega
      have e2 : 2 * (j - r.nsMinF1) = (j - r.nsMinF1) * 2 + 0 := by ring
      have e3 : 2 * (j - r.nsMinF1) + 1 = (j - r.nsMinF1) * 2 + 1 := by ring
      refine ⟨upd_same _ _ _, upd_same _ _ _, upd_same _ _ _, upd_same _ _ _, upd_same _ _ _, ?_, ?_⟩
      · show upd (upd s.scalxc ((j - r.nsMinF1) * 2 + 0) 1) ((j - r.nsMinF1) * 2 + 1) _ _ = _
        rw [upd_ne _ _ e1, e2, upd_same]
      · show upd (upd s.scalxc ((j - r.nsMinF1) * 2 + 0) 1) ((j - r.nsMinF1) * 2 + 1) _ _ = _
        rw [e3, upd_same]
    · have hk : j - r.nsMinF1 ≠ i - r.nsMinF1 := by omega
      have e1 : 2 * (j - r.nsMinF1) ≠ (i - r.nsMinF1) * 2 + 1 := by omega
      have e2 : 2 * (j - r.nsMinF1) ≠ (i - r.nsMinF1) * 2 + 0 := by omega
      have e3 : 2 * (j - r.nsMinF1) + 1 ≠ (i - r.nsMinF1) * 2 + 1 := by omega
      have e4 : 2 * (j - r.nsMinF1) + 1 ≠ (i - r.nsMinF1) * 2 + 0 := by omega
      have := ih j h3 (by omega)
      simpa only [FullDone, fullBody, upd_ne _ _ hk, upd_ne _ _ e1, upd_ne _ _ e2, upd_ne _ _ e3, upd_ne _ _ e4] using this

/-- the full-grid loop does not touch the half-grid arrays -/
theorem full_keeps (I : RadialIn) (r : Ranges) (s : RadialArrays) :
    let s' := forRange r.nsMinF1 r.nsMaxF1 (fullBody I r) s
    (s'.sqrtSH, s'.phipH, s'.chipH, s'.iotaH, s'.currH, s'.massH, s'.local_rmsPhiP) =
    (s.sqrtSH, s.phipH, s.chipH, s.iotaH, s.currH, s.massH, s.local_rmsPhiP) := by
  intro s'
  have := forRange_map (lo := r.nsMinF1) (hi := r.nsMaxF1) (fullBody I r) (fun _ t => t)
    (fun s : RadialArrays => (s.sqrtSH, s.phipH, s.chipH, s.iotaH, s.currH, s.massH, s.local_rmsPhiP))
    (fun j s => rfl) s
  rw [this]
  unfold forRange
  generalize irange _ _ = l
  induction l with
  | nil => rfl
  | cons x xs ih => exact ih

/-- the last loop touches only `sm` and `sp` -/
theorem stag_keeps (r : Ranges) (s : RadialArrays) :
    ∃ a b, forRange r.nsMinH r.nsMaxH (stagBody r) s = { s with sm := a, sp := b } := by
  unfold forRange
  generalize irange _ _ = l
  induction l using List.reverseRecOn with
  | nil => exact ⟨s.sm, s.sp, rfl⟩
  | append_singleton xs x ih =>
    obtain ⟨a, b, h⟩ := ih
    rw [List.foldl_append, h]
    exact ⟨_, _, rfl⟩

theorem stag_loop (r : Ranges) (s : RadialArrays) (h : r.nsMinH ≤ r.nsMaxH) :
    let s' := forRange r.nsMinH r.nsMaxH (stagBody r) s
    ∀ j, r.nsMinH ≤ j → j < r.nsMaxH →
      s'.sm (j - r.nsMinH) = s.sqrtSH (j - r.nsMinH) / s.sqrtSF (j + 1 - r.nsMinF1) ∧
      (0 < j → s'.sp (j - r.nsMinH) = s.sqrtSH (j - r.nsMinH) / s.sqrtSF (j - r.nsMinF1)) := by
  intro s'
  have := forRange_inv h (stagBody r) s
    (fun i (s' : RadialArrays) => (s'.sqrtSH = s.sqrtSH ∧ s'.sqrtSF = s.sqrtSF) ∧ ∀ j, r.nsMinH ≤ j → j < i →
      s'.sm (j - r.nsMinH) = s.sqrtSH (j - r.nsMinH) / s.sqrtSF (j + 1 - r.nsMinF1) ∧
      (0 < j → s'.sp (j - r.nsMinH) = s.sqrtSH (j - r.nsMinH) / s.sqrtSF (j - r.nsMinF1)))
    ⟨⟨rfl, rfl⟩, fun j h1 h2 => by omega⟩ ?_
  · exact this.2
  · rintro i s' h1 h2 ⟨⟨q1, q2⟩, ih⟩
    refine ⟨⟨q1, q2⟩, fun j h3 h4 => ?_⟩
    by_cases hj : j = i
    · subst hj
      simp only [stagBody, upd_same, q1, q2]
      refine ⟨trivial, fun h0 => ?_⟩
      rw [if_pos h0, upd_same]
    · have hk : j - r.nsMinH ≠ i - r.nsMinH := by omega
      obtain ⟨a, b⟩ := ih j h3 (by omega)
      refine ⟨by simpa only [stagBody, upd_ne _ _ hk] using a, fun h0 => ?_⟩
      rw [← b h0]
      simp only [stagBody]
      split_ifs
      · rw [upd_ne _ _ hk]
      · rfl

theorem half_rms (I : RadialIn) (r : Ranges) (flip : Bool) (s : RadialArrays) (h : s.local_rmsPhiP = 0) :
    (forRange r.nsMinH r.nsMaxH (halfBody I r flip) s).local_rmsPhiP =
      localHalfSum I.ns r (fun j => (maxToroidalFlux I.aphi I.signOfJacobian I.phiedge *
        torfluxDeriv I.aphi ((j + 0.5) / (I.ns - 1))) ^ 2) := by
  have := forRange_map (lo := r.nsMinH) (hi := r.nsMaxH) (halfBody I r flip)
    (fun j (a : ℝ) => if j < r.nsMaxH - 1 ∨ j = I.ns - 2 then a + (maxToroidalFlux I.aphi I.signOfJacobian I.phiedge *
        torfluxDeriv I.aphi ((j + 0.5) / (I.ns - 1))) ^ 2 else a) (fun s : RadialArrays => s.local_rmsPhiP)
    (fun j s => by simp only [halfBody, sq]) s
  rw [this, h]
  rfl

/-- everything `evalRadialProfiles` leaves in the arrays of one thread -/
def ArraysSpec (I : RadialIn) (r : Ranges) (flip : Bool) (a : RadialArrays) : Prop :=
    (∀ j, r.nsMinH ≤ j → j < r.nsMaxH → HalfDone I r flip a j) ∧
    (∀ j, r.nsMinF1 ≤ j → j < r.nsMaxF1 → FullDone I r a j) ∧
    (∀ j, r.nsMinH ≤ j → j < r.nsMaxH →
      a.sm (j - r.nsMinH) = Real.sqrt ((j + 0.5) / (I.ns - 1)) / Real.sqrt ((j + 1 : Int) / (I.ns - 1)) ∧
      (0 < j → a.sp (j - r.nsMinH) = Real.sqrt ((j + 0.5) / (I.ns - 1)) / Real.sqrt (j / (I.ns - 1))) ∧
      (j = 0 → a.sp (j - r.nsMinH) = a.sm (j - r.nsMinH))) ∧
    a.local_rmsPhiP =
      localHalfSum I.ns r (fun j => (maxToroidalFlux I.aphi I.signOfJacobian I.phiedge *
        torfluxDeriv I.aphi ((j + 0.5) / (I.ns - 1))) ^ 2)

theorem evalArrays_spec (I : RadialIn) (r : Ranges) (flip : Bool) (s : RadialArrays)
    (hH : r.nsMinH = r.nsMinF1) (hM : r.nsMaxH = r.nsMaxF1 - 1) (h0 : 0 ≤ r.nsMinF1) (h1 : r.nsMinF1 + 2 ≤ r.nsMaxF1)
    (h2 : r.nsMaxF1 ≤ I.ns) :
    ArraysSpec I r flip (evalArrays I r flip s) := by
  set s1 := forRange r.nsMinH r.nsMaxH (halfBody I r flip) { s with local_rmsPhiP := 0 } with hs1
  set s2 := forRange r.nsMinF1 r.nsMaxF1 (fullBody I r) s1 with hs2
  have A : ∀ j, r.nsMinH ≤ j → j < r.nsMaxH → HalfDone I r flip s1 j := half_loop I r flip _ (by omega)
  have B : ∀ j, r.nsMinF1 ≤ j → j < r.nsMaxF1 → FullDone I r s2 j := full_loop I r s1 (by omega)
  have C := full_keeps I r s1
  simp only [Prod.mk.injEq] at C
  obtain ⟨c1, c2, c3, c4, c5, c6, c7⟩ := C
  have hns : (0 : ℝ) < (I.ns : ℝ) - 1 := by
    have : (2 : ℝ) ≤ (I.ns : ℝ) := by exact_mod_cast (by omega : (2 : Int) ≤ I.ns)
    linarith
  -- the exact edge value changes nothing
  have E : edgeFix I r s2 = s2 := by
    unfold edgeFix
    split_ifs with he
    · have := (B (I.ns - 1) (by omega) (by omega)).1
      have e : s2.sqrtSF (I.ns - 1 - r.nsMinF1) = 1 := by
        rw [this]; push_cast; rw [div_self hns.ne', Real.sqrt_one]
      have : upd s2.sqrtSF (I.ns - 1 - r.nsMinF1) 1 = s2.sqrtSF := by
        funext k
        by_cases hk : k = I.ns - 1 - r.nsMinF1
        · rw [hk, upd_same, e]
        · rw [upd_ne _ _ hk]
      rw [this]
    · rfl
  have D := stag_loop r s2 (by omega)
  obtain ⟨a, b, K⟩ := stag_keeps r s2
  have F : evalArrays I r flip s = axisFix r { s2 with sm := a, sp := b } := by
    show axisFix r (forRange r.nsMinH r.nsMaxH (stagBody r) (edgeFix I r s2)) = _
    rw [E, K]
  rw [K] at D
  obtain ⟨b', G, G0, G1⟩ : ∃ b', axisFix r { s2 with sm := a, sp := b } = { s2 with sm := a, sp := b' } ∧
      (r.nsMinH = 0 → b' 0 = a 0) ∧ (∀ j, 0 < j → b' (j - r.nsMinH) = b (j - r.nsMinH)) := by
    unfold axisFix
    split_ifs with hz
    · refine ⟨upd b 0 (a 0), rfl, fun _ => upd_same _ _ _, fun j hj => upd_ne _ _ (by omega)⟩
    · exact ⟨b, rfl, fun h => absurd h hz, fun _ _ => rfl⟩
  rw [F, G]
  refine ⟨fun j h3 h4 => ?_, fun j h3 h4 => ?_, fun j h3 h4 => ?_, ?_⟩
  · have := A j h3 h4
    simp only [HalfDone] at this ⊢
    rw [c1, c2, c3, c4, c5, c6]
    exact this
  · exact B j h3 h4
  · obtain ⟨d1, d2⟩ := D j h3 h4
    have hh : s2.sqrtSH (j - r.nsMinH) = Real.sqrt ((j + 0.5) / (I.ns - 1)) := by
      rw [c1]; exact (A j h3 h4).1
    have ho : s2.sqrtSF (j + 1 - r.nsMinF1) = Real.sqrt ((j + 1 : Int) / (I.ns - 1)) := (B (j + 1) (by omega) (by omega)).1
    have hi : s2.sqrtSF (j - r.nsMinF1) = Real.sqrt (j / (I.ns - 1)) := (B j (by omega) (by omega)).1
    refine ⟨?_, fun hj => ?_, fun hj => ?_⟩
    · rw [← hh, ← ho]; exact d1
    · rw [← hh, ← hi]; show b' _ = _; rw [G1 j hj]; exact d2 hj
    · show b' _ = a _
      have hz : r.nsMinH = 0 := by omega
      have : j - r.nsMinH = 0 := by omega
      rw [this]; exact G0 hz
  · show s2.local_rmsPhiP = _
    rw [c7, hs1]
    exact half_rms I r flip _ rfl

/-- after the loop over the threads -/
theorem init_threads (I : RadialIn) (flip : Bool) (nt : Int) (hnt : 0 ≤ nt) (R : Int → Ranges) (v : Solver) :
    (∀ t, isThread nt t → (initProfiles I flip nt R v).p t = evalArrays I (R t) flip (v.p t)) ∧
    (initProfiles I flip nt R v).rmsPhiP = v.rmsPhiP +
      ∑ t ∈ Finset.Ico 0 nt, (evalArrays I (R t) flip (v.p t)).local_rmsPhiP ∧
    (initProfiles I flip nt R v).lamscale = Real.sqrt ((initProfiles I flip nt R v).rmsPhiP * (1 / (I.ns - 1))) := by
  have := forRange_inv hnt (evalRadialProfiles I flip R) v
    (fun i (w : Solver) => (∀ t, 0 ≤ t → t < i → w.p t = evalArrays I (R t) flip (v.p t)) ∧
      (∀ t, i ≤ t → w.p t = v.p t) ∧
      w.rmsPhiP = v.rmsPhiP + ∑ t ∈ Finset.Ico 0 i, (evalArrays I (R t) flip (v.p t)).local_rmsPhiP)
    ⟨fun t h1 h2 => by omega, fun _ _ => rfl, by simp⟩ ?_
  · exact ⟨fun t ht => this.1 t ht.1 ht.2, this.2.2, rfl⟩
  · rintro i w h1 h2 ⟨a, b, c⟩
    have hw := b i (le_refl _)
    refine ⟨fun t h3 h4 => ?_, fun t h3 => ?_, ?_⟩
    · by_cases ht : t = i
      · subst ht; simp only [evalRadialProfiles, upd_same, hw]
      · simp only [evalRadialProfiles, upd_ne _ _ ht]; exact a t h3 (by omega)
    · simp only [evalRadialProfiles, upd_ne _ _ (by omega : t ≠ i)]; exact b t (by omega)
    · simp only [evalRadialProfiles, hw, c]
      rw [sum_Ico_int_succ h1, add_assoc]

theorem team_ranges {nt ns : Int} {lfreeb : Bool} {R : Int → Ranges} (hns : 2 ≤ ns) (hnt : 1 ≤ nt)
    (hT : Team nt ns lfreeb R) {t : Int} (ht : isThread nt t) :
    (R t).nsMinH = (R t).nsMinF1 ∧ (R t).nsMaxH = (R t).nsMaxF1 - 1 ∧ 0 ≤ (R t).nsMinF1 ∧
      (R t).nsMinF1 + 2 ≤ (R t).nsMaxF1 ∧ (R t).nsMaxF1 ≤ ns := by
  have hn : 0 ≤ numSurfacesToDistribute ns lfreeb := n_nonneg (by omega)
  have hN : numSurfacesToDistribute ns lfreeb = ns ∨ numSurfacesToDistribute ns lfreeb = ns - 1 := by
    unfold numSurfacesToDistribute; split <;> simp
  have hp : 0 < nt := by omega
  obtain ⟨f0, f1, f2, f3, f4, f5, f6, _, _, _⟩ := team_facts hns hnt hT ht
  have b0 := split_nonneg hn hp ht.1
  have b1 := split_le hn hp ht.2
  have b2 : splitMin _ nt t + 1 ≤ splitMax _ nt t := split_ge hn hp (by omega) t
  rw [← f1] at b0 b2
  rw [← f2] at b1 b2
  refine ⟨f5, f6, by omega, by omega, by omega⟩

end Verif.Profiles
