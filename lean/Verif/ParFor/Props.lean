import Verif.ParFor.Lemmas

/-!
# C118: the worksharing loops of the output and of the response tables

For every number of threads, every assignment of the iterations to the threads and every interleaving: no data race, and the values of the serial
loops, which are those of C89 and C57.
-/
namespace Verif.ParFor
open Verif Verif.Output Verif.Fourier

/-! ## the machine -/

section
variable {L P V T I : Type} [DecidableEq L] [DecidableEq P] [DecidableEq T] {body : I → List (Op L P V)}

/-- **C118** a team that has not finished can go on (no deadlock), if there is a thread at all -/
theorem C118_progress [Nonempty T] (σ : State T I L P V) (h : ¬ Finished σ) : ∃ t σ', Step body t σ σ' := by
  by_cases hc : ∀ t, σ.cur t = []
  · by_cases hp : σ.pool = ∅
    · exact absurd ⟨hp, hc⟩ h
    · obtain ⟨i, hi⟩ := Set.nonempty_iff_ne_empty.mpr hp
      exact ⟨Classical.arbitrary T, _, .take i hi (hc _)⟩
  · simp only [not_forall] at hc
    obtain ⟨t, ht⟩ := hc
    cases hx : σ.cur t with
    | nil => exact absurd hx ht
    | cons o rest => exact ⟨t, _, .exec o rest hx⟩

/-- a thread that runs its iteration to the end without interruption -/
theorem reach_run {σ₀ : State T I L P V} (t : T) : ∀ (ops : List (Op L P V)) (σ : State T I L P V), Reachable body σ₀ σ → σ.cur t = ops →
    ∃ σ', Reachable body σ₀ σ' ∧ σ'.pool = σ.pool ∧ σ'.cur t = [] ∧ (∀ u, u ≠ t → σ'.cur u = σ.cur u)
  | [], σ, h, hc => ⟨σ, h, rfl, hc, fun _ _ => rfl⟩
  | o :: rest, σ, h, hc => by
    have hs := Reachable.step t h (Step.exec (body := body) o rest hc)
    obtain ⟨σ', h1, h2, h3, h4⟩ := reach_run t rest _ hs (by simp [put])
    refine ⟨σ', h1, h2, h3, fun u hu => ?_⟩
    rw [h4 u hu]; simp [put, hu]

/-- **C118** the loop can be finished (the statements about finished loops are not empty) -/
theorem C118_terminates [Nonempty T] (order : List I) (p : T → P → V) (s : L → V) :
    ∃ σ : State T I L P V, Reachable body (initial {i | i ∈ order} p s) σ ∧ Finished σ := by
  have t : T := Classical.arbitrary T
  have key : ∀ (done todo : List I), ∀ σ : State T I L P V, Reachable body (initial {i | i ∈ order} p s) σ → (∀ u, σ.cur u = []) →
      (∀ i, i ∈ σ.pool → i ∈ todo) → ∃ σ' : State T I L P V, Reachable body (initial {i | i ∈ order} p s) σ' ∧ Finished σ' := by
    intro done todo
    induction todo with
    | nil =>
      intro σ h hc hp
      exact ⟨σ, h, Set.eq_empty_of_forall_notMem (fun i hi => by simpa using hp i hi), hc⟩
    | cons i todo ih =>
      intro σ h hc hp
      by_cases hi : i ∈ σ.pool
      · obtain ⟨σ', h1, h2, h3, h4⟩ := reach_run (body := body) t (body i) _ (Reachable.step t h (Step.take i hi (hc t))) (by simp [put])
        refine ih σ' h1 (fun u => ?_) (fun j hj => ?_)
        · by_cases e : u = t
          · rw [e]; exact h3
          · rw [h4 u e]; simp only [put, e, if_false]; exact hc u
        · rw [h2] at hj
          rcases List.mem_cons.mp (hp j hj.1) with h | h
          · exact absurd h hj.2
          · exact h
      · refine ih σ h hc (fun j hj => ?_)
        rcases List.mem_cons.mp (hp j hj) with rfl | h
        · exact absurd hj hi
        · exact h
  exact key [] order _ .start (fun _ => rfl) (fun _ hi => hi)

end

/-! ## `|B|` -/

section
variable {T : Type} [DecidableEq T] (s : Sizes.Sizes)

theorem abs_writes {jH : Int} {o : Op BLoc BReg ℝ} (ho : o ∈ absBody s jH) {a : BLoc} (hw : o.writes a) :
    ∃ kl, 0 ≤ kl ∧ kl < s.nZnT ∧ a = .magnetic_pressure (jH * s.nZnT + kl) := by
  simp only [absBody, List.mem_flatMap, mem_irange] at ho
  obtain ⟨kl, hk, ho⟩ := ho
  refine ⟨kl, hk.1, hk.2, ?_⟩
  fin_cases ho <;> simp [Op.writes] at hw
  exact hw.symm

theorem abs_independent (num : Int) : Independent (absBody s) {j | 0 ≤ j ∧ j < num} := by
  constructor
  · intro i _ j _ hij o ho o' ho' a hw ht
    obtain ⟨kl, k0, k1, rfl⟩ := abs_writes s ho hw
    simp only [absBody, List.mem_flatMap, mem_irange] at ho'
    obtain ⟨kl', hk', ho'⟩ := ho'
    fin_cases ho' <;> simp [Op.touches] at ht
    exact hij (Verif.flat_inj k0 k1 hk'.1 hk'.2 ht.symm).1
  · intro j _ p p' σ
    rw [absBody_shared, absBody_shared]

/-- **C118** `|B|` on the half grid: no data race, and the values of the serial loop -/
theorem C118_absB (ns : Int) (p : T → BReg → ℝ) (σ₀ : BLoc → ℝ) (hz : ∀ i, σ₀ (.magnetic_pressure i) = 0) {σ : State T Int BLoc BReg ℝ}
    (h : Reachable (absBody s) (initial {j | 0 ≤ j ∧ j < ns - 1} p σ₀) σ) :
    ¬ Race σ ∧ (Finished σ → ∀ jH kl, 0 ≤ kl → kl < s.nZnT →
      σ.shared (.magnetic_pressure (jH * s.nZnT + kl)) =
        absB s ns (fun i => σ₀ (.total_pressure i)) (fun j => σ₀ (.presH j)) (jH * s.nZnT + kl)) := by
  refine ⟨no_race (abs_independent s _) p h, fun hf jH kl k0 k1 => ?_⟩
  have hsh := finished_shared (abs_independent s _) p h hf (.magnetic_pressure (jH * s.nZnT + kl))
  unfold absB
  rw [fillGrid_eq _ _ _ _ _ _ k0 k1]
  split_ifs with hj
  · rw [hsh.1 jH hj (.store (.magnetic_pressure (jH * s.nZnT + kl)) .value) (by
      simp only [absBody, List.mem_flatMap, mem_irange]; exact ⟨kl, ⟨k0, k1⟩, by simp⟩) rfl (fun _ => 0), absBody_shared]
    dsimp only
    rw [if_pos (by omega)]
  · rw [hsh.2, hz]
    intro i hi o ho hw
    obtain ⟨kl', k0', k1', e⟩ := abs_writes s ho hw
    simp only [BLoc.magnetic_pressure.injEq] at e
    have := (Verif.flat_inj k0 k1 k0' k1' e).1
    subst this
    exact hj hi

end

/-! ## Nyquist transforms -/

section
variable {T : Type} [DecidableEq T] {s : Sizes.Sizes} {lasym : Bool} {nfp mpol ntor ntheta nzeta mg ng : Int}
  (hs : Sizes.mk lasym nfp mpol ntor ntheta nzeta mg ng = .ok s) (xm xn : Int → Int)
  (ht : computeConversionIndices s.nnyq (s.mnyq + 1) s.nfp = .ok (xm, xn))

theorem halfBody_eq : halfBody s xm xn = surfaceOps s [] xm xn 1 Field.all := rfl
theorem fullBody_eq : fullBody s xm xn = surfaceOps s (clearOps s [.bsubs]) xm xn 0 [.bsubs] := rfl

include hs ht in
theorem table_range : ∀ mn, 0 ≤ mn → mn < s.mnmax_nyq → 0 ≤ xm mn ∧ xm mn ≤ s.mnyq := by
  intro mn m0 m1
  obtain ⟨n, _, h1, h2, _⟩ := table_mode hs xm xn ht mn m0 m1
  exact ⟨h1, h2⟩

/-- matrix of a field and a parity -/
noncomputable def expected (s : Sizes.Sizes) (num shift : Int) (xm xn : Int → Int) (q : Field) (a : Bool) (f : Int → ℝ) : Int → Int → ℝ :=
  if (q = .bsubs) = (a = true) then nyqCosMatrix s s.nfp num shift xm xn 1 f else nyqSinMatrix s s.nfp num shift xm xn (-1) f

theorem expected_cos (num shift : Int) {q : Field} {a : Bool} (h : (q = .bsubs) = (a = true)) (f : Int → ℝ) :
    expected s num shift xm xn q a f = nyqCosMatrix s s.nfp num shift xm xn 1 f := if_pos h
theorem expected_sin (num shift : Int) {q : Field} {a : Bool} (h : ¬ (q = .bsubs) = (a = true)) (f : Int → ℝ) :
    expected s num shift xm xn q a f = nyqSinMatrix s s.nfp num shift xm xn (-1) f := if_neg h

include hs ht in
/-- both transform loops -/
theorem surface_loop {pre : List (Op NLoc NReg ℝ)} (hpre : ∀ o ∈ pre, ∀ loc, ¬ o.touches loc) (shift num : Int) (qs : List Field) (p : T → NReg → ℝ) (σ₀ : NLoc → ℝ)
    (hz : ∀ q a mn c, σ₀ (.out q a mn c) = 0) {σ : State T Int NLoc NReg ℝ}
    (h : Reachable (surfaceOps s pre xm xn shift qs) (initial {j | 0 ≤ j ∧ j < num} p σ₀) σ) :
    ¬ Race σ ∧ (Finished σ → (∀ q i, σ.shared (.field q i) = σ₀ (.field q i)) ∧
      ∀ q ∈ qs, ∀ mn, 0 ≤ mn → mn < s.mnmax_nyq → ∀ c,
        σ.shared (.out q false mn c) = expected s num shift xm xn q false (fun i => σ₀ (.field q i)) mn c ∧
        σ.shared (.out q true mn c) = if s.lasym then expected s num shift xm xn q true (fun i => σ₀ (.field q i)) mn c else 0) := by
  have hI := surfaceOps_independent s hs hpre xm xn shift num qs (table_range hs xm xn ht)
  refine ⟨no_race hI p h, fun hf => ⟨fun q i => ?_, ?_⟩⟩
  · refine (finished_shared hI p h hf (.field q i)).2 ?_
    intro j _ o ho hw
    obtain ⟨_, _, _, _, _, _, _, e⟩ := (surfaceOps_writes s hpre xm xn shift qs j _).mp ⟨o, ho, hw⟩
    cases e
  intro q hq mn m0 m1 c
  have main : ∀ a ∈ parities s, σ.shared (.out q a mn c) = expected s num shift xm xn q a (fun i => σ₀ (.field q i)) mn c := by
    intro a ha
    have hsh := finished_shared hI p h hf (.out q a mn c)
    by_cases hc : 0 ≤ c - shift ∧ c - shift < num
    · obtain ⟨j, rfl⟩ : ∃ j, c = j + shift := ⟨c - shift, by omega⟩
      have hj : 0 ≤ j ∧ j < num := by omega
      obtain ⟨o, ho, hw⟩ := (surfaceOps_writes s hpre xm xn shift qs j (.out q a mn (j + shift))).mpr ⟨q, hq, a, ha, mn, m0, m1, rfl⟩
      rw [hsh.1 j hj o ho hw (fun _ => 0), surfaceOps_out s hs hpre xm xn shift qs j (table_range hs xm xn ht) _ σ₀ q hq a ha mn m0 m1]
      unfold coeff expected reflSign
      split_ifs
      · rw [cosMatrix_col hs xm xn num shift 1 _ j hj.1 hj.2 mn m0 m1]; rfl
      · rw [sinMatrix_col hs xm xn num shift (-1) _ j hj.1 hj.2 mn m0 m1]; rfl
    · rw [hsh.2, hz]
      · unfold expected nyqCosMatrix nyqSinMatrix
        split_ifs
        · rw [nyqFill_eq _ _ _ _ _ m0 m1, if_neg hc]
        · rw [nyqFill_eq _ _ _ _ _ m0 m1, if_neg hc]
      · intro j hj o ho hw
        obtain ⟨_, _, _, _, _, _, _, e⟩ := (surfaceOps_writes s hpre xm xn shift qs j _).mp ⟨o, ho, hw⟩
        simp only [NLoc.out.injEq] at e
        simp only [Set.mem_setOf_eq] at hj
        omega
  refine ⟨main false ((mem_parities s).mpr (by simp)), ?_⟩
  split_ifs with hl
  · exact main true ((mem_parities s).mpr (fun _ => hl))
  · rw [(finished_shared hI p h hf (.out q true mn c)).2, hz]
    intro j _ o ho hw
    obtain ⟨_, _, a, ha, _, _, _, e⟩ := (surfaceOps_writes s hpre xm xn shift qs j _).mp ⟨o, ho, hw⟩
    simp only [NLoc.out.injEq] at e
    rw [mem_parities, ← e.2.1] at ha
    exact hl (ha rfl)

include hs ht in
/-- **C118** half grid: for every team and schedule the loop is free of data races and leaves in the output the coefficients of C89, although the work arrays of
    a thread still hold the sums of another surface when an iteration begins -/
theorem C118_half (ns : Int) (p : T → NReg → ℝ) (σ₀ : NLoc → ℝ) (hz : ∀ q a mn c, σ₀ (.out q a mn c) = 0) {σ : State T Int NLoc NReg ℝ}
    (h : Reachable (halfBody s xm xn) (initial {j | 0 ≤ j ∧ j < ns - 1} p σ₀) σ) :
    ¬ Race σ ∧ (Finished σ → (∀ q i, σ.shared (.field q i) = σ₀ (.field q i)) ∧ ∀ mn, 0 ≤ mn → mn < s.mnmax_nyq → ∀ c,
      (∀ q, q ≠ .bsubs → σ.shared (.out q false mn c) = halfMnc s s.nfp ns xm xn (fun i => σ₀ (.field q i)) mn c ∧
        σ.shared (.out q true mn c) = halfMns s s.nfp ns xm xn (fun i => σ₀ (.field q i)) mn c) ∧
      σ.shared (.out .bsubs false mn c) = nyqSinMatrix s s.nfp (ns - 1) 1 xm xn (-1) (fun i => σ₀ (.field .bsubs i)) mn c ∧
      σ.shared (.out .bsubs true mn c) =
        if s.lasym then nyqCosMatrix s s.nfp (ns - 1) 1 xm xn 1 (fun i => σ₀ (.field .bsubs i)) mn c else 0) := by
  rw [halfBody_eq] at h
  obtain ⟨h1, h2⟩ := surface_loop hs xm xn ht (pre := []) (by simp) 1 (ns - 1) Field.all p σ₀ hz h
  refine ⟨h1, fun hf => ⟨(h2 hf).1, fun mn m0 m1 c => ⟨fun q hq => ?_, ?_⟩⟩⟩
  · obtain ⟨e1, e2⟩ := (h2 hf).2 q (by cases q <;> simp [Field.all]) mn m0 m1 c
    rw [e1, e2, expected_cos xm xn _ _ (by simp [hq]), expected_sin xm xn _ _ (by simp [hq])]
    unfold halfMnc halfMns
    exact ⟨rfl, by split_ifs <;> rfl⟩
  · obtain ⟨e1, e2⟩ := (h2 hf).2 .bsubs (by simp [Field.all]) mn m0 m1 c
    rw [e1, e2, expected_sin xm xn _ _ (by simp), expected_cos xm xn _ _ (by simp)]
    exact ⟨rfl, rfl⟩

include hs ht in
/-- **C118** full grid -/
theorem C118_full (ns : Int) (p : T → NReg → ℝ) (σ₀ : NLoc → ℝ) (hz : ∀ q a mn c, σ₀ (.out q a mn c) = 0) {σ : State T Int NLoc NReg ℝ}
    (h : Reachable (fullBody s xm xn) (initial {j | 0 ≤ j ∧ j < ns} p σ₀) σ) :
    ¬ Race σ ∧ (Finished σ → (∀ q i, σ.shared (.field q i) = σ₀ (.field q i)) ∧ ∀ mn, 0 ≤ mn → mn < s.mnmax_nyq → ∀ c,
      σ.shared (.out .bsubs false mn c) = bsubsmns_full s s.nfp ns xm xn (fun i => σ₀ (.field .bsubs i)) mn c ∧
      σ.shared (.out .bsubs true mn c) = bsubsmnc_full s s.nfp ns xm xn (fun i => σ₀ (.field .bsubs i)) mn c) := by
  rw [fullBody_eq] at h
  obtain ⟨h1, h2⟩ := surface_loop hs xm xn ht (pre := clearOps s [.bsubs]) (fun o ho loc => clearOps_silent s _ ho loc) 0 ns [.bsubs] p σ₀ hz h
  refine ⟨h1, fun hf => ⟨(h2 hf).1, fun mn m0 m1 c => ?_⟩⟩
  obtain ⟨e1, e2⟩ := (h2 hf).2 .bsubs (by simp) mn m0 m1 c
  rw [e1, e2, expected_sin xm xn _ _ (by simp), expected_cos xm xn _ _ (by simp)]
  unfold bsubsmns_full bsubsmnc_full
  exact ⟨rfl, by split_ifs <;> rfl⟩

include hs ht in
/-- **C118** with and without OpenMP: the shared memory after the loops is that of the serial loops, whatever the private memories held -/
theorem C118_serial (ns : Int) (p : T → NReg → ℝ) (q : NReg → ℝ) (σ₀ : NLoc → ℝ) {σ : State T Int NLoc NReg ℝ} (hf : Finished σ) :
    (Reachable (halfBody s xm xn) (initial {j | 0 ≤ j ∧ j < ns - 1} p σ₀) σ → σ.shared = (serial (halfBody s xm xn) (irange 0 (ns - 1)) (q, σ₀)).2) ∧
    (Reachable (fullBody s xm xn) (initial {j | 0 ≤ j ∧ j < ns} p σ₀) σ → σ.shared = (serial (fullBody s xm xn) (irange 0 ns) (q, σ₀)).2) := by
  constructor
  · intro h
    rw [halfBody_eq] at h ⊢
    exact finished_serial (surfaceOps_independent s hs (by simp) xm xn 1 _ _ (table_range hs xm xn ht)) p h hf _ (fun i => mem_irange) (irange_nodup _ _) q
  · intro h
    rw [fullBody_eq] at h ⊢
    exact finished_serial (surfaceOps_independent s hs (fun o ho loc => clearOps_silent s _ ho loc) xm xn 0 _ _ (table_range hs xm xn ht)) p h hf _
      (fun i => mem_irange) (irange_nodup _ _) q

include hs ht in
/-- **C118** every access to a work array is inside of it: the arrays have `(mnyq + 1) * nZeta` elements -/
theorem C118_work_bounds (j m k : Int) (q : Field) (m0 : 0 ≤ m) (m1 : m ≤ s.mnyq) (k0 : 0 ≤ k) (k1 : k < s.nZeta) :
    (0 ≤ m * s.nZeta + k ∧ m * s.nZeta + k < (s.mnyq + 1) * s.nZeta) ∧
    (∀ o ∈ poloidalOps s j m k q, ∀ q' sine a i, o.sets (.work q' sine a i) → i = m * s.nZeta + k) ∧
    (∀ mn, 0 ≤ mn → mn < s.mnmax_nyq → 0 ≤ xm mn * s.nZeta + k ∧ xm mn * s.nZeta + k < (s.mnyq + 1) * s.nZeta) := by
  have range : ∀ m, 0 ≤ m → m ≤ s.mnyq → 0 ≤ m * s.nZeta + k ∧ m * s.nZeta + k < (s.mnyq + 1) * s.nZeta := by
    intro m m0 m1
    have a := mul_nonneg m0 (show 0 ≤ s.nZeta by omega)
    have b := mul_le_mul_of_nonneg_right m1 (show 0 ≤ s.nZeta by omega)
    constructor
    · omega
    · rw [add_mul, one_mul]; omega
  refine ⟨range m m0 m1, fun o ho q' sine a i hset => ?_, fun mn h0 h1 => ?_⟩
  · by_contra hne
    exact poloidalOps_sets s j m k q q' sine a i (fun h => hne h.2) o ho hset
  · obtain ⟨x0, x1⟩ := table_range hs xm xn ht mn h0 h1
    exact range _ x0 x1

end

/-! ## response tables -/

section
open Verif.Makegrid
variable {T : Type} [DecidableEq T] {par : Makegrid.Params}

theorem convert_independent (lo hi : Int) : Independent (convertBody par) {j | lo ≤ j ∧ j < hi} := by
  constructor
  · intro i _ j _ hij o ho o' ho' a hw ht
    unfold convertBody at ho ho'
    fin_cases ho <;> simp [Op.writes] at hw
    subst hw
    fin_cases ho' <;> simp [Op.touches] at ht
    exact hij ht.symm
  · intro i _ p p' σ
    simp [convertBody, run, Op.exec, put]

theorem mirror_independent {n total : Int} (hr : ∀ i, n ≤ i → i < total → reversed par i < n) : Independent (mirrorBody par) {j | n ≤ j ∧ j < total} := by
  constructor
  · intro i hi j hj hij o ho o' ho' a hw ht
    unfold mirrorBody at ho ho'
    fin_cases ho <;> simp [Op.writes] at hw
    subst hw
    fin_cases ho' <;> simp [Op.touches] at ht
    · have := hr j hj.1 hj.2
      have := hi.1
      omega
    · exact hij ht.symm
  · intro i _ p p' σ
    simp [mirrorBody, run, Op.exec, put]

/-- **C118** conversion to cylindrical components: no data race, and the values of the serial loop of C57 -/
theorem C118_convert (n : Int) (p : T → GReg → Option V) (σ₀ : GLoc → Option V) {σ : State T Int GLoc GReg (Option V)}
    (h : Reachable (convertBody par) (initial {j | 0 ≤ j ∧ j < n} p σ₀) σ) :
    ¬ Race σ ∧ (Finished σ → ∀ i, 0 ≤ i → i < n →
      σ.shared (.table i) = convert par (cosPhi par) (sinPhi par) (fun i => σ₀ (.field i)) n (fun i => σ₀ (.table i)) i) := by
  refine ⟨no_race (convert_independent 0 n) p h, fun hf i i0 i1 => ?_⟩
  rw [convert_at _ _ _ _ _ i i0 i1, (finished_shared (convert_independent 0 n) p h hf (.table i)).1 i ⟨i0, i1⟩ (.store (.table i) .value)
    (by simp [convertBody]) rfl (fun _ => none)]
  simp [convertBody, run, Op.exec, put]

/-- **C118** mirroring: with valid grid parameters the loop over the planes behind the middle one has no data race and the values of C57 -/
theorem C118_mirror (hv : Valid par) (hsym : par.assume_stellarator_symmetry = true) (p : T → GReg → Option V) (σ₀ : GLoc → Option V)
    {σ : State T Int GLoc GReg (Option V)}
    (h : Reachable (mirrorBody par) (initial {j | evalPlanes par * par.number_of_z_grid_points * par.number_of_r_grid_points ≤ j ∧
      j < par.number_of_phi_grid_points * par.number_of_z_grid_points * par.number_of_r_grid_points} p σ₀) σ) :
    ¬ Race σ ∧ (Finished σ → ∀ i, i < par.number_of_phi_grid_points * par.number_of_z_grid_points * par.number_of_r_grid_points →
      σ.shared (.table i) = mirror par (evalPlanes par * par.number_of_z_grid_points * par.number_of_r_grid_points)
        (par.number_of_phi_grid_points * par.number_of_z_grid_points * par.number_of_r_grid_points) (fun i => σ₀ (.table i)) i) := by
  have hr := fun i h0 h1 => (C57_mirror_reads_computed (par := par) (i := i) hv hsym h0 h1).2
  generalize evalPlanes par * par.number_of_z_grid_points * par.number_of_r_grid_points = n at h hr ⊢
  generalize par.number_of_phi_grid_points * par.number_of_z_grid_points * par.number_of_r_grid_points = total at h hr ⊢
  have hI := mirror_independent (par := par) hr
  refine ⟨no_race hI p h, fun hf i hi => ?_⟩
  have hsh := finished_shared hI p h hf (.table i)
  by_cases hn : n ≤ i
  · rw [(mirror_at (by omega) _ hr).2 i hn hi, hsh.1 i ⟨hn, hi⟩ (.store (.table i) .value) (by simp [mirrorBody]) rfl (fun _ => none)]
    simp [mirrorBody, run, Op.exec, put]
  · have hkeep : σ.shared (.table i) = σ₀ (.table i) := by
      refine hsh.2 ?_
      intro j hj o ho hw
      unfold mirrorBody at ho
      fin_cases ho <;> simp [Op.writes] at hw
      subst hw
      exact hn hj.1
    rw [hkeep]
    by_cases hnt : n ≤ total
    · rw [(mirror_at hnt _ hr).1 i (by omega)]
    · unfold mirror; rw [forRange_empty (by omega)]

/-- **C118** the loop may not begin one plane earlier: the middle plane is its own mirror image, and two threads would race on it -/
theorem C118_middle_plane : ∃ σ : State Bool Int GLoc GReg (Option V),
    Reachable (mirrorBody (demoPar 0 false)) (initial {j | 8 ≤ j ∧ j < 16} (fun _ _ => none) (fun _ => none)) σ ∧ Race σ := by
  have r8 : reversed (demoPar 0 false) 8 = 10 := by decide
  have h1 := Reachable.step false (Reachable.start (body := mirrorBody (demoPar 0 false)) (σ₀ := initial {j | 8 ≤ j ∧ j < 16} (fun _ : Bool => fun _ => none) (fun _ => none)))
    (Step.take 8 (by simp [initial]) rfl)
  have h2 := Reachable.step true h1 (Step.take 10 (by simp [initial]) (by simp [put, initial]))
  have h3 := Reachable.step true h2 (Step.exec (.load .value (.table (reversed (demoPar 0 false) 10)))
    [.set .value (fun r => (r .value).map mirrored), .store (.table 10) .value] rfl)
  have h4 := Reachable.step true h3 (Step.exec (.set .value (fun r => (r .value).map mirrored)) [.store (.table 10) .value] rfl)
  refine ⟨_, h4, true, false, by decide, .store (.table 10) .value, [], .load .value (.table (reversed (demoPar 0 false) 8)), _, rfl, rfl, .table 10, rfl, ?_⟩
  simp [Op.touches, r8]

end

/-! ## the hypotheses can be met -/

/-- an asymmetric case with four threads: initial state, mode tables, a finished loop -/
example : ∃ s xm xn, Sizes.mk true 5 6 4 0 36 0 0 = .ok s ∧ computeConversionIndices s.nnyq (s.mnyq + 1) s.nfp = .ok (xm, xn) ∧
    ∃ σ : State (Fin 4) Int NLoc NReg ℝ,
      Reachable (halfBody s xm xn) (initial {j | 0 ≤ j ∧ j < 11 - 1} (fun _ _ => 7) (fun a => match a with | .field _ i => i | .out _ _ _ _ => 0)) σ ∧ Finished σ := by
  obtain ⟨s, hs⟩ : ∃ s, Sizes.mk true 5 6 4 0 36 0 0 = .ok s := ⟨_, rfl⟩
  obtain ⟨_, _, _, h5, h6⟩ := nZnT_eq hs
  obtain ⟨h1, h2, _⟩ := nyq_sizes hs
  obtain ⟨xm, xn, h, _⟩ := C09_mode_table (s.mnyq + 1) s.nnyq s.nfp (by omega) (by omega)
  refine ⟨s, xm, xn, hs, h, ?_⟩
  have := C118_terminates (T := Fin 4) (body := halfBody s xm xn) (irange 0 (11 - 1)) (fun _ _ => 7)
    (fun a => match a with | .field _ i => (i : ℝ) | .out _ _ _ _ => 0)
  simpa only [mem_irange] using this

/-- valid grid parameters with stellarator symmetry and planes behind the middle one -/
example : Makegrid.Valid (Makegrid.demoPar 0 false) ∧ (Makegrid.demoPar 0 false).assume_stellarator_symmetry = true ∧
    Makegrid.evalPlanes (Makegrid.demoPar 0 false) < (Makegrid.demoPar 0 false).number_of_phi_grid_points :=
  ⟨Makegrid.demoPar_valid (by norm_num) false, rfl, by decide⟩

end Verif.ParFor
