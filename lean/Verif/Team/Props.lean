import Verif.Team.Update
import Mathlib.Data.Rat.Defs
import Mathlib.Algebra.Order.Field.Rat
import Mathlib.Tactic.NormNum

/-!
# C06 and C40: shared accumulators and barrier discipline of the force evaluation

All statements are about the interleaving machine of `Verif.Team.Machine`: `Inevitable Q c` means that
every schedule of the team, from configuration `c`, gets to `Q` (without hanging before).
-/
namespace Verif.Team

variable {R : Type} [Field R] [LinearOrder R] {n : Nat}

/-- every schedule ends with all threads having returned, thread `i` with `r i`, and shared state `s'` -/
def EndsWith {S A : Type} (s' : S) (r : Fin n → A) (d : Cfg n S A) : Prop :=
  d.shared = s' ∧ Finished d r

theorem endsWith_start {S A : Type} (s : S) (c : Nat) (r : Fin n → A) :
    EndsWith s r (start s c (fun i => .ret (r i))) := ⟨rfl, fun _ => rfl⟩

/-! ## C06 -/

/-- a thread that accumulates its contribution to the invariant residuals, looks at the result, and
    does the same again for every further evaluation; it returns everything it has seen -/
def residualRounds (i : Fin n) : List (Fin n → R × R × R) → List (R × R × R) →
    Prog (Sh R) (List (R × R × R))
  | [], seen => .ret seen
  | loc :: rest, seen =>
    evalFResInvar (loc i) <| rd (fun s => (s.fsqr, s.fsqz, s.fsql)) fun v =>
      residualRounds i rest (seen ++ [v])

theorem residualRounds_pend (hn : 0 < n) (rounds : List (Fin n → R × R × R)) (s : Sh R)
    (J : Sh R → Prop) (hJ : ∀ s v, J s → J { s with fResInvar := v })
    (seen : List (R × R × R)) :
    Pend (fun d => ∃ s', EndsWith s' (fun _ => seen ++ rounds.map fun loc =>
        ((∑ i, loc i).1 * s.fNormRZ * (1 / 4), (∑ i, loc i).2.1 * s.fNormRZ * (1 / 4),
         (∑ i, loc i).2.2 * s.fNormL)) d)
      s J [] (fun i => residualRounds i rounds seen) := by
  induction rounds generalizing s J seen with
  | nil =>
    simp only [residualRounds, List.map_nil, List.append_nil]
    exact Pend.ret hn fun c => ⟨_, endsWith_start _ _ _⟩
  | cons loc rest ih =>
    simp only [residualRounds]
    refine Pend.evalFResInvar hn hJ (Safe.enter (Pend.rd (by simp) ?_))
    have := ih (afterInvar (∑ i, loc i) s)
      (fun t => True ∧ (t.fsqr, t.fsqz, t.fsql) = ((afterInvar (∑ i, loc i) s).fsqr,
        (afterInvar (∑ i, loc i) s).fsqz, (afterInvar (∑ i, loc i) s).fsql))
      (fun _ _ h => h) (seen ++ [((afterInvar (∑ i, loc i) s).fsqr,
        (afterInvar (∑ i, loc i) s).fsqz, (afterInvar (∑ i, loc i) s).fsql)])
    simp only [List.append_assoc, List.singleton_append] at this
    exact this

/-- C06 for the force residuals: whatever the number of threads, the contributions and the schedule,
    in every one of an arbitrary number of evaluations every thread sees the sum of all contributions
    (times the normalisation), never a partial sum, and the team never hangs. -/
theorem C06_residuals (hn : 0 < n) (rounds : List (Fin n → R × R × R)) (s : Sh R) (c : Nat) :
    Inevitable (fun d => ∃ s', EndsWith s' (fun _ => rounds.map fun loc =>
        ((∑ i, (loc i).1) * s.fNormRZ * (1 / 4), (∑ i, (loc i).2.1) * s.fNormRZ * (1 / 4),
         (∑ i, (loc i).2.2) * s.fNormL)) d)
      (start s c (fun i : Fin n => residualRounds i rounds [])) := by
  have := residualRounds_pend hn rounds s (fun _ => True) (fun _ _ h => h) []
  simpa [Prod.fst_sum, Prod.snd_sum] using Safe.enter this c

/-- ... and the same for whatever any thread has returned at any moment of any execution. -/
theorem C06_residuals_no_partial_sum (hn : 0 < n) (rounds : List (Fin n → R × R × R)) (s : Sh R)
    (c : Nat) (d : Cfg n (Sh R) (List (R × R × R)))
    (hd : Reach (start s c (fun i : Fin n => residualRounds i rounds [])) d) (i : Fin n)
    (v : List (R × R × R)) (hv : d.code i = .ret v) :
    v = rounds.map fun loc =>
        ((∑ i, (loc i).1) * s.fNormRZ * (1 / 4), (∑ i, (loc i).2.1) * s.fNormRZ * (1 / 4),
         (∑ i, (loc i).2.2) * s.fNormL) := by
  have h := C06_residuals hn rounds s c
  exact Inevitable.returned hn (Q := fun _ => True)
    (h.mono (fun d ⟨s', hs⟩ => ⟨trivial, hs.2⟩)) hd hv

/-- C06 for the preconditioned residuals. -/
theorem C06_preconditioned_residuals (hn : 0 < n) (e : Cst R) (loc : Fin n → R × R × R) (s : Sh R)
    (c : Nat) :
    Inevitable (fun d => ∃ s', EndsWith s' (fun _ =>
        ((∑ i, (loc i).1) * s.fNorm1, (∑ i, (loc i).2.1) * s.fNorm1, (∑ i, (loc i).2.2) * e.deltaS)) d)
      (start s c (fun i : Fin n => evalFResPrecd e (loc i)
        (rd (fun s => (s.fsqr1, s.fsqz1, s.fsql1)) .ret))) := by
  refine Safe.enter (Pend.evalFResPrecd hn (fun _ _ h => h) (Safe.enter (Pend.rd (by simp) ?_))) c
  refine Pend.ret hn fun c => ⟨_, rfl, fun _ => ?_⟩
  simp [start, afterPrecd, Prod.fst_sum, Prod.snd_sum]

/-- C06 for the plasma volume of the first iteration. -/
theorem C06_initial_volume (hn : 0 < n) (loc : Fin n → R) (s : Sh R) (c : Nat) :
    Inevitable (fun d => ∃ s', EndsWith s' (fun _ => ∑ i, loc i) d)
      (start s c (fun i : Fin n => computeInitialVolume (loc i) (rd (fun s => s.voli) .ret))) := by
  refine Safe.enter (Pend.computeInitialVolume hn (fun _ _ h => h)
    (Safe.enter (Pend.rd (by simp) ?_))) c
  exact Pend.ret hn fun c => ⟨_, endsWith_start _ c _⟩

/-- C06 for the energies and the force norms, as they follow each other in an evaluation: thermal and
    magnetic energy, volume, and the force norms computed from them. Every thread ends up with the
    values formed from the complete sums. -/
theorem C06_energies_and_norms (hn : 0 < n) (e : Cst R) (l : Fin n → Local R) (s : Sh R) (c : Nat) :
    let T := ∑ i, (l i).thermal
    let M := ∑ i, (l i).magnetic
    let V := ∑ i, (l i).volume
    Inevitable (fun d => ∃ s', EndsWith s' (fun _ =>
        (M + T / (e.adiabaticIndex - 1),
         1 / ((∑ i, (l i).normRZ) * (max M T / V) * (max M T / V)),
         1 / ((∑ i, (l i).normL) * e.lamscale * e.lamscale),
         1 / (∑ i, (l i).norm1))) d)
      (start s c (fun i : Fin n =>
        pressureAndEnergies e (l i).thermal (l i).magnetic <|
        updateVolume (l i).volume <|
        computeForceNorms e (l i) <|
        rd (fun s => (s.mhdEnergy, s.fNormRZ, s.fNormL, s.fNorm1)) .ret)) := by
  intro T M V
  refine Safe.enter (Pend.pressureAndEnergies hn (fun _ _ _ h => h) (Safe.enter
    (Pend.updateVolume hn (fun _ _ h => h) (Safe.enter (Pend.computeForceNorms hn (fun _ _ _ _ h => h)
      (Safe.enter (Pend.rd (by simp) ?_))))))) c
  exact Pend.ret hn fun c => ⟨_, endsWith_start _ c _⟩

/-! ## C40 -/

/-- C40, proved part: if the constraint-multiplier check fails on all threads or on none, then for
    every number of threads, every schedule, every checkpoint setting, all local Jacobian verdicts
    and every outcome of the vacuum solve, the force evaluation ends on all threads with the same
    return value (checkpoint, bad Jacobian, error or normal end, the same restart request and the
    same vacuum interval). Missing: an error met by some threads only, see `C40_lost_error_hangs`. -/
theorem C40_together_partial (hn : 0 < n) (e : Cst R) (l : Fin n → Local R) (s : Sh R) (c : Nat)
    (hu : ∀ i j, (l i).tconError = (l j).tconError) :
    Inevitable (fun d => ∃ r : Ret, Finished d (fun _ => r))
      (start s c (fun i => update e (l i))) :=
  update_safe e l hn hu s c

/-- consequence: under the same condition no reachable configuration is stuck -/
theorem C40_no_hang_partial (hn : 0 < n) (e : Cst R) (l : Fin n → Local R) (s : Sh R) (c : Nat)
    (hu : ∀ i j, (l i).tconError = (l j).tconError) (d : Cfg n (Sh R) Ret)
    (hd : Reach (start s c (fun i => update e (l i))) d) : ¬ Stuck d := by
  refine Inevitable.not_stuck hn (Q := fun _ => True)
    ((C40_together_partial hn e l s c hu).mono ?_) hd
  rintro d ⟨r, hr⟩
  exact ⟨trivial, fun _ => r, hr⟩

theorem fold_jacobian (l : Fin n → Local R) (L : List (Fin n)) (s : Sh R) :
    (L.foldl (fun s i => if (l i).badJacobian then { s with restart := .badJacobian } else s) s) =
      if ∃ i ∈ L, (l i).badJacobian then { s with restart := .badJacobian } else s := by
  induction L generalizing s with
  | nil => simp
  | cons i L ih =>
    simp only [List.foldl_cons, ih, List.mem_cons, exists_eq_or_imp]
    by_cases h : (l i).badJacobian <;> by_cases h' : ∃ a ∈ L, (l a).badJacobian <;> simp [h, h']

theorem Pend.ckptNone {Post : Cfg n (Sh R) Ret → Prop} {s : Sh R} {J : Sh R → Prop}
    {fs : List (Sh R → Sh R)} {e : Cst R} {c : Ckpt} {K : Fin n → P R} (he : ∀ c, e.stopAt c = false)
    (h : Pend Post s J fs K) : Pend Post s J fs (fun i => Team.ckpt e c (K i)) := by
  unfold Team.ckpt
  simpa [he c] using h

theorem Pend.barriers' {S A : Type} {Post : Cfg n S A → Prop} {s : S} (hn : 0 < n)
    {K : Fin n → Prog S A} (m : Nat) (h : Pend Post s (fun _ => True) [] K) :
    Pend Post s (fun _ => True) [] (fun i => Team.barriers m (K i)) := by
  induction m with
  | zero => exact h
  | succ m ih => simp only [Team.barriers]; exact Pend.barrier hn (Safe.enter ih)

/-- a bad Jacobian found by a single thread is seen by all: every thread leaves the evaluation with
    the bad-Jacobian verdict (no checkpoints set) -/
theorem C40_bad_jacobian_reported (hn : 0 < n) (e : Cst R) (l : Fin n → Local R) (s : Sh R) (c : Nat)
    (he : ∀ c, e.stopAt c = false) (i : Fin n) (hi : (l i).badJacobian = true) :
    Inevitable (fun d => Finished d (fun _ => Ret.badJacobian) ∧ d.shared.restart = .badJacobian)
      (start s c (fun i => update e (l i))) := by
  have key : ∀ (s : Sh R) (J : Sh R → Prop), (∀ s v, J s → J { s with restart := v }) →
      Pend (fun d => Finished d (fun _ => Ret.badJacobian) ∧ d.shared.restart = .badJacobian) s J []
        (fun i => jacobianBlock e (l i)) := by
    intro s J hJ
    unfold jacobianBlock computeJacobian
    refine Pend.act hn (fun i t h => ?_) (fun L hL => Safe.enter (Pend.ckptNone he (Pend.rd (by simp) ?_)))
    · split
      · exact hJ t _ h
      · exact h
    have hex : ∃ i ∈ L, (l i).badJacobian = true := ⟨i, hL.mem_iff.2 (List.mem_finRange i), hi⟩
    have hf := fold_jacobian l L s
    rw [if_pos hex] at hf
    refine Pend.ite (fun _ => Pend.ret hn fun c => ⟨fun _ => rfl, ?_⟩) (fun h => absurd ?_ h)
    · simp only [start, List.foldl_nil, hf]
    · simp only [hf, decide_true]
  unfold update
  refine Safe.enter (Pend.ckptNone he (Pend.barriers' hn _ (Pend.ckptNone he (Pend.rd (by simp) ?_)))) c
  refine Pend.ite (fun _ => ?_) (fun _ => key _ _ (fun _ _ h => h))
  unfold rzConIntoVolume
  exact Pend.barrier hn (Safe.enter (key _ _ (fun _ _ h => h)))

/-- Some threads have returned and the others, after reading shared values that nobody changes any
    more, wait at a barrier: every schedule hangs. -/
theorem Pend.hang {S A : Type} {s : S} {J : S → Prop} (hn : 0 < n)
    {P Q : Fin n → Prog S A} {i j : Fin n} {a : A} {q : Prog S A}
    (hi : Q i = .ret a) (hj : Q j = .barrier q) (hQ : ∀ k, Halted (Q k))
    (hP : ∀ k, Prefix (fun t => t = s) [] (P k) (Q k)) :
    Pend (fun d : Cfg n S A => Stuck d) s J [] P := by
  intro st P0 hP0 c
  have := phase_singles hn (fun t => t = s) [] (by simp) s rfl c P0 Q (fun k => by
    obtain ⟨m, hm⟩ := (hP k).phase (f := id) (Phase.halt (hQ k))
    have := ((hP0 k).weaken (J := fun t => t = s) (by rintro t rfl; exact st.here)).phase hm
    simpa using this)
  refine this.mono ?_
  rintro d rfl
  refine ⟨?_, j, fun a => ?_⟩
  · intro c' hs
    cases hs with
    | act k f q e => have := hQ k; simp only [start] at e; rw [e] at this; cases this
    | read k g e => have := hQ k; simp only [start] at e; rw [e] at this; cases this
    | claim k f q e => have := hQ k; simp only [start] at e; rw [e] at this; cases this
    | skip k f q e => have := hQ k; simp only [start] at e; rw [e] at this; cases this
    | cross K e => have := e i; simp only [start] at this; rw [hi] at this; cases this
  · simp only [start, hj]; intro h; cases h

/-- without checkpoints, whatever follows the preconditioner update starts with a barrier -/
theorem virtualCkpt_barrier (e : Cst R) (l : Local R) (he : ∀ c, e.stopAt c = false) (s : Sh R) :
    ∃ q, Prefix (fun t => t = s) [] (virtualCkpt e l) (.barrier q) := by
  unfold virtualCkpt vacuumBlock ckpt rd
  simp only [he, Bool.false_eq_true, if_false]
  by_cases h : (e.lfreeb && (decide (1 < e.iter2) || decide (s.vac = .initialized))) = true
  · exact ⟨_, .read (by rintro t rfl; rw [if_pos h]) (.refl _)⟩
  · have : ∃ q, tail e l false e.nvacskip = .barrier q := by
      unfold tail ckpt
      simp only [he, Bool.false_eq_true, if_false]
      exact ⟨_, rfl⟩
    obtain ⟨q, hq⟩ := this
    exact ⟨q, .read (p := tail e l false e.nvacskip) (by rintro t rfl; rw [if_neg h]) (hq ▸ .refl _)⟩

theorem tcon_hang (hn : 0 < n) (e : Cst R) (l : Fin n → Local R)
    (he : ∀ c, e.stopAt c = false) (i j : Fin n)
    (hi : (l i).tconError = true) (hj : (l j).tconError = false) {s' : Sh R} :
    Pend (fun d => Stuck d) s' (fun _ => True) [] (fun i =>
      if (l i).tconError then .ret (.error "arNorm should never be 0.0.") else
      ckpt e .tcon <| virtualCkpt e (l i)) := by
  choose q hq using fun k : Fin n => virtualCkpt_barrier e (l k) he s'
  refine Pend.hang hn (i := i) (j := j) (Q := fun k => if (l k).tconError = true then
    .ret (.error "arNorm should never be 0.0.") else .barrier (q k))
    (a := .error "arNorm should never be 0.0.") (q := q j) (by simp [hi]) (by simp [hj]) ?_ ?_
  · intro k; beta_reduce; split
    · exact .ret _
    · exact .barrier _
  · intro k; beta_reduce; split
    · exact .refl _
    · unfold ckpt; simp only [he, Bool.false_eq_true, if_false]; exact hq k

theorem preconditionerBlock_hang (hn : 0 < n) (e : Cst R) (l : Fin n → Local R)
    (he : ∀ c, e.stopAt c = false) (hp : (e.iter2 - e.iter1).tmod 25 = 0) (i j : Fin n)
    (hi : (l i).tconError = true) (hj : (l j).tconError = false) {s : Sh R} :
    Pend (fun d => Stuck d) s (fun _ => True) [] (fun i => preconditionerBlock e (l i)) := by
  unfold preconditionerBlock
  simp only [hp, if_true]
  refine Pend.single (fun _ _ => trivial) (Pend.ckptNone he ?_)
  refine Pend.updateVolume hn (fun _ _ h => h) (Safe.enter ?_)
  refine Pend.computeForceNorms hn (fun _ _ _ _ h => h) (Safe.enter (Pend.ckptNone he ?_))
  exact tcon_hang hn e l he i j hi hj

/-- C40 is false as a statement about all executions: if the error of `constraintForceMultiplier` is
    met by one thread and not by another, then no schedule lets the team finish: every execution
    hangs, because the failing thread returns its error status and the others wait for it at the next
    barrier. (No checkpoints, no bad Jacobian, an iteration that updates the preconditioner.) -/
theorem C40_lost_error_hangs (hn : 0 < n) (e : Cst R) (l : Fin n → Local R) (s : Sh R) (c : Nat)
    (he : ∀ c, e.stopAt c = false) (hs : s.restart ≠ .badJacobian)
    (hb : ∀ k, (l k).badJacobian = false) (hp : (e.iter2 - e.iter1).tmod 25 = 0) (i j : Fin n)
    (hi : (l i).tconError = true) (hj : (l j).tconError = false) :
    Inevitable (fun d => Stuck d) (start s c (fun i => update e (l i))) := by
  have key2 : ∀ (s : Sh R) (J : Sh R → Prop),
      (∀ s v w, J s → J { s with thermalEnergy := v, magneticEnergy := w }) →
      Pend (fun d => Stuck d) s J [] (fun i => fieldBlock e (l i)) := by
    intro s J hJ
    unfold fieldBlock
    refine (Pend.ckptNone he (Pend.ckptNone he (Pend.ckptNone he ?_)))
    refine Pend.pressureAndEnergies hn (fun _ _ _ h => hJ _ _ _ h)
      (Safe.enter (Pend.ckptNone he (Pend.ckptNone he ?_)))
    refine Pend.act hn (fun _ _ _ => trivial) (fun _ _ => Safe.enter (Pend.barrier hn (Safe.enter ?_)))
    exact Pend.ckptNone he (preconditionerBlock_hang hn e l he hp i j hi hj)
  have key : ∀ (J : Sh R → Prop), (∀ s v, J s → J { s with restart := v }) →
      Pend (fun d => Stuck d) s J [] (fun i => jacobianBlock e (l i)) := by
    intro J hJ
    unfold jacobianBlock computeJacobian
    refine Pend.act hn (fun i t h => by simpa [hb i] using h)
      (fun L hL => Safe.enter (Pend.ckptNone he (Pend.rd (by simp) ?_)))
    have hf := fold_jacobian l L s
    rw [if_neg (by simp [hb])] at hf
    refine Pend.ite (fun h => absurd ?_ hs) (fun _ => Pend.ckptNone he (Pend.ite (fun _ => ?_) (fun _ => ?_)))
    · rw [hf] at h; simpa using h
    · exact Pend.computeInitialVolume hn (fun _ _ h => h) (Safe.enter (key2 _ _ (fun _ _ _ h => h)))
    · exact key2 _ _ (fun _ _ _ h => h)
  unfold update
  refine Safe.enter (Pend.ckptNone he (Pend.barriers' hn _ (Pend.ckptNone he (Pend.rd (by simp) ?_)))) c
  refine Pend.ite (fun _ => ?_) (fun _ => key _ (fun _ _ h => h))
  unfold rzConIntoVolume
  exact Pend.barrier hn (Safe.enter (key _ (fun _ _ h => h)))

/-! ## Concrete cases -/

/-- a shared state, some parameters and the contributions of a thread -/
def exSh : Sh ℚ :=
  ⟨(1, 2, 3), (0, 0, 0), 1, 1, 1, 1, 1, 1, 0, 0, 0, 0, 0, 2, 3, 1, 0, 1, 0, 0, 0, false, .noRestart,
   .off, 0, 0⟩

def exCst : Cst ℚ :=
  ⟨1, 26, true, false, 6, fun _ => false, 1, 2, false, 2, 1, 1/4, fun s => (s.cTor, s.rBtor, false),
   fun _ => 10, 1/1000, 1/1000000, 100, 1/100⟩

def exLocal (i : Fin 3) (err bad : Bool) : Local ℚ :=
  ⟨(i, 1, 2), (1, 1, i), i, 1, 2, 1, 1, 1, bad, err, decide (i = 0), 5, decide (i = 2), 4, 1⟩

/-- the three threads contribute 0, 1, 2; then 1, 2, 3: everybody sees 3 and 6 (times 2/4) -/
example : Inevitable (fun d => ∃ s', EndsWith s' (fun _ => [((3 : ℚ) * 2 * (1/4), 0, 0), (6 * 2 * (1/4), 0, 0)]) d)
    (start exSh 0 (fun i : Fin 3 => residualRounds i
      [fun i => ((i.val : ℚ), 0, 0), fun i => ((i.val : ℚ) + 1, 0, 0)] [])) := by
  have := C06_residuals (n := 3) (by decide)
    [fun i => ((i.val : ℚ), 0, 0), fun i => ((i.val : ℚ) + 1, 0, 0)] exSh 0
  simp [Fin.sum_univ_three, exSh] at this ⊢
  norm_num at this ⊢
  exact this

/-- energies: 3 threads with magnetic energy 2 and thermal energy 1 each, volume 0 + 1 + 2 -/
example : ∃ M T V : ℚ, M = ∑ i, (exLocal i false false).magnetic ∧
    T = ∑ i, (exLocal i false false).thermal ∧ V = ∑ i, (exLocal i false false).volume ∧
    (M, T, V) = (6, 3, 3) := by
  refine ⟨_, _, _, rfl, rfl, rfl, ?_⟩
  simp [Fin.sum_univ_three, exLocal]; norm_num

/-- no thread meets the error: the team stays together -/
example : Inevitable (fun d => ∃ r : Ret, Finished d (fun _ => r))
    (start exSh 0 (fun i => update exCst (exLocal i false false))) :=
  C40_together_partial (by decide) _ _ _ _ (fun _ _ => rfl)

/-- thread 1 finds a bad Jacobian: all threads report it -/
example : Inevitable (fun d => Finished d (fun _ => Ret.badJacobian) ∧ d.shared.restart = .badJacobian)
    (start exSh 0 (fun i => update exCst (exLocal i false (decide (i = 1))))) :=
  C40_bad_jacobian_reported (by decide) _ _ _ _ (fun _ => rfl) 1 rfl

/-- thread 2 meets the error: the team hangs -/
example : Inevitable (fun d => Stuck d)
    (start exSh 0 (fun i => update exCst (exLocal i (decide (i = 2)) false))) :=
  C40_lost_error_hangs (by decide) _ _ _ _ (fun _ => rfl) (by decide) (fun _ => rfl) (by decide) 2 0
    rfl rfl

end Verif.Team
