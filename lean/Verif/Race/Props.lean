import Verif.Race.Model
import Verif.Race.Lemmas

/-!
# Property C115

The threads of the solver never touch the same shared memory at the same time in a conflicting way,
and therefore all read the same values, on every path through the iteration.
-/
namespace Verif.Race
open Verif Verif.Partition

/-! ## The radial team -/

theorem solve_chk : ∃ r, chk solveEquilibrium [] = some r :=
  Option.isSome_iff_exists.1 (by decide +kernel)

/-- the variables of `ending` occur nowhere else -/
def notEnding (a : Acc Var) : Bool :=
  !(a.var == .num_eqsolve_retries) && !(a.var == .any_checkpoint_reached) &&
    !(a.var == .status_of_all_threads)

theorem solve_clear {w pre : List (Op Var)} (hw : Word solveEquilibrium w) (hp : pre <+: w) :
    Clear [] (pre ++ ending) := by
  obtain ⟨r, hr⟩ := solve_chk
  refine clear_ending hr hw hp ending notEnding (by decide +kernel) ?_
  intro cur hcur
  have h : ∀ a ∈ cur, a.var ≠ .num_eqsolve_retries ∧ a.var ≠ .any_checkpoint_reached ∧
      a.var ≠ .status_of_all_threads := by
    intro a ha
    have := hcur a ha
    simp only [notEnding, Bool.and_eq_true, Bool.not_eq_true', beq_eq_false_iff_ne] at this
    tauto
  refine ⟨by decide, fun b hb => ?_, by decide, fun b hb => ?_, by decide, fun b hb => ?_, trivial⟩
  · simp [compat, Ne.symm (h b hb).1]
  · rcases List.mem_cons.1 hb with rfl | hb
    · decide
    · simp [compat, Ne.symm (h b hb).2.1]
  · rcases List.mem_cons.1 hb with rfl | hb
    · decide
    · rcases List.mem_cons.1 hb with rfl | hb
      · decide
      · simp [compat, Ne.symm (h b hb).2.2]

/-- **C115** (no data race): for every number of threads the thread adjustment admits, every path
    through the iterations, every checkpoint or error that ends it early, every choice of the threads
    that run the `single` blocks and every timing, no two threads of the solver access the same
    shared memory cell at the same time unless both read or both hold the same lock.
    Missing: an error of `constraintForceMultiplier` on one thread only, after which the threads no
    longer follow one text (see C40). -/
theorem C115_no_race_partial {Val : Type} (T : Team) (hT : T.Admissible) {w pre : List (Op Var)}
    (hw : Word solveEquilibrium w) (hp : pre <+: w) {s : St T Var Val}
    (hs : Reach T (pre ++ ending) s) : ¬ DataRace T (pre ++ ending) s :=
  no_race (solve_clear hw hp) (fun _ _ => distinct T hT _) hs

/-- **C115** (same decisions): all threads that pass a read of a shared variable get the same value,
    so all take the same branch.  Missing: as above. -/
theorem C115_same_values_partial {Val : Type} (T : Team) {w pre : List (Op Var)}
    (hw : Word solveEquilibrium w) (hp : pre <+: w) {s : St T Var Val}
    (hs : Reach T (pre ++ ending) s) {i : Nat} {v : Var}
    (hi : (pre ++ ending)[i]? = some (.acc ⟨v, false, .all⟩)) {t u : Fin T.n}
    {f g : Int × Int → Val} (hf : s.seen i t = some f) (hg : s.seen i u = some g) : f = g :=
  same_value (solve_clear hw hp) hs hi hf hg

/-- **C115** (one edge, one axis): in an admissible team exactly the last thread has the boundary and
    exactly the first one has the axis, so what they do without `single` is done once. -/
theorem C115_roles (T : Team) (hT : T.Admissible) (hn : 0 < T.n) :
    (∃! t : Fin T.n, ∃ r, T.ranges t = .ok r ∧ r.nsMaxF1 = T.ns) ∧
    (∃! t : Fin T.n, ∃ r, T.ranges t = .ok r ∧ r.nsMinF1 = 0) := by
  have h0 : (0 : Int) < T.n := by omega
  have hs := hT.surfaces
  have hN : 0 ≤ numSurfacesToDistribute T.ns T.lfreeb := n_nonneg (by omega)
  have hthr := hT.threads
  have hle : numSurfacesToDistribute T.ns T.lfreeb ≤ T.ns ∧
      T.ns - 1 ≤ numSurfacesToDistribute T.ns T.lfreeb := by
    unfold numSurfacesToDistribute; split <;> omega
  obtain ⟨R, hR⟩ := C01_team_exists T.n T.ns T.lfreeb (by omega) (by omega) (by omega)
  have hok : ∀ t : Fin T.n, T.ranges t = .ok (R t) := fun t => hR _ ⟨by omega, by have := t.isLt; omega⟩
  constructor
  · refine ⟨⟨T.n - 1, by omega⟩, ⟨_, hok _, ?_⟩, ?_⟩
    · obtain ⟨-, e2, -, e4⟩ := ranges_facts hT _ (hok ⟨T.n - 1, by omega⟩)
      rw [e4, e2, splitMax_eq_succ hN h0]
      have e : (((⟨T.n - 1, by omega⟩ : Fin T.n) : Nat) : Int) + 1 = T.n := by
        show ((T.n - 1 : Nat) : Int) + 1 = T.n
        omega
      rw [e, splitMin_last hN h0]
      omega
    · rintro t ⟨r, h1, h2⟩
      refine lcfs_unique hT h1 (hok _) h2 ?_
      obtain ⟨-, e2, -, e4⟩ := ranges_facts hT _ (hok ⟨T.n - 1, by omega⟩)
      rw [e4, e2, splitMax_eq_succ hN h0]
      have e : (((⟨T.n - 1, by omega⟩ : Fin T.n) : Nat) : Int) + 1 = T.n := by
        show ((T.n - 1 : Nat) : Int) + 1 = T.n
        omega
      rw [e, splitMin_last hN h0]
      omega
  · have hz : (R ((⟨0, hn⟩ : Fin T.n) : Nat)).nsMinF1 = 0 := by
      obtain ⟨e1, -, e3, -⟩ := ranges_facts hT _ (hok ⟨0, hn⟩)
      rw [e3, e1]
      have e : (((⟨0, hn⟩ : Fin T.n) : Nat) : Int) = 0 := rfl
      rw [e, splitMin_zero hN h0]
      rfl
    refine ⟨⟨0, hn⟩, ⟨_, hok _, hz⟩, ?_⟩
    rintro t ⟨r, h1, h2⟩
    exact axis_unique hT h1 (hok _) h2 hz

/-! ## The nested team of the vacuum solver -/

/-- kinds of accesses in the vacuum solver -/
def vacuumKind (a : Acc VVar) : Bool :=
  (a.who == .all || a.who == .one || a.who == .crit || a.who == .part .byPoint) &&
    !(a.var == .vacuum_reached_checkpoint)

theorem vacuum_no_race {Val : Type} (T : Team) (hz : 0 ≤ T.nZnT) (p : Prog VVar)
    {r : List (Acc VVar)} (hr : chk p [] = some r) (hk : forallAcc vacuumKind p = true)
    {w pre : List (Op VVar)} (hw : Word p w) (hp : pre <+: w) {s : St T VVar Val}
    (hs : Reach T (pre ++ vacuumEnding) s) : ¬ DataRace T (pre ++ vacuumEnding) s := by
  refine no_race (clear_ending hr hw hp vacuumEnding vacuumKind hk ?_) ?_ hs
  · intro cur hcur
    refine ⟨by decide, fun b hb => ?_, trivial⟩
    have := hcur b hb
    simp only [vacuumKind, Bool.and_eq_true, Bool.not_eq_true', beq_eq_false_iff_ne] at this
    simp [compat, Ne.symm this.2]
  · intro a ha
    rcases List.mem_append.1 ha with ha | ha
    · obtain ⟨v, rfl⟩ := hp
      have := forallAcc_word hw hk a (List.mem_append_left _ ha)
      simp only [vacuumKind, Bool.and_eq_true, Bool.or_eq_true, beq_iff_eq] at this
      rcases this.1 with ((h | h) | h) | h
      · exact distinct_simple T (by simp [h])
      · exact distinct_simple T (by simp [h])
      · exact distinct_simple T (by simp [h])
      · rw [h]; exact distinct_point T hz
    · simp only [vacuumEnding, List.mem_singleton, Op.acc.injEq] at ha
      subst ha
      exact distinct_simple T (by simp)

/-- **C115** (vacuum): the same for the team of the vacuum solver, of any size, with NESTOR and with
    the field of the coils only. -/
theorem C115_vacuum_no_race {Val : Type} (T : Team) (hz : 0 ≤ T.nZnT) {w pre : List (Op VVar)}
    (hw : Word nestorUpdate w ∨ Word onlyCoilsUpdate w) (hp : pre <+: w) {s : St T VVar Val}
    (hs : Reach T (pre ++ vacuumEnding) s) : ¬ DataRace T (pre ++ vacuumEnding) s := by
  rcases hw with hw | hw
  · obtain ⟨r, hr⟩ := Option.isSome_iff_exists.1
      (show (chk nestorUpdate []).isSome = true by decide +kernel)
    exact vacuum_no_race T hz _ hr (by decide +kernel) hw hp hs
  · obtain ⟨r, hr⟩ := Option.isSome_iff_exists.1
      (show (chk onlyCoilsUpdate []).isSome = true by decide +kernel)
    exact vacuum_no_race T hz _ hr (by decide +kernel) hw hp hs

/-! ## The barriers are needed -/

/-- Beginning of `SolveEquilibriumLoop` without the barrier `vmec.cc:896`. -/
def loopHeadNoBarrier : List (Op Var) := [
  .barrier, .acc ⟨.restart_reason, false, .all⟩, .acc ⟨.restart_reason, true, .one⟩, .barrier]

/-- Two threads on eleven surfaces; thread 1 runs the `single` blocks. -/
def exTeam : Team := ⟨2, 11, false, 12, 40, fun _ => 1⟩

/-- **C115** (a barrier less is a race): without the barrier that "protects reads of restart_reason
    above from write below" the first thread may still read while the other one writes. -/
theorem C115_barrier_needed : ∃ s : St exTeam Var Int, Reach exTeam loopHeadNoBarrier s ∧
    DataRace exTeam loopHeadNoBarrier s := by
  have h0 : Reach exTeam loopHeadNoBarrier (⟨fun _ => 0, fun _ _ => 0, fun _ _ => none⟩ :
    St exTeam Var Int) := .start _
  have h1 := h0.step (Step.sync _ 0 rfl fun _ => rfl)
  have h2 := h1.step (Step.read _ (1 : Fin 2) ⟨.restart_reason, false, .all⟩ rfl rfl)
  refine ⟨_, h2, (0 : Fin 2), (1 : Fin 2),
    show (0 : Fin 2) ≠ 1 by decide, ⟨.restart_reason, false, .all⟩, ⟨.restart_reason, true, .one⟩,
    rfl, rfl, rfl, Or.inr rfl, ?_, (0, 0), trivial, rfl⟩
  rintro (⟨h, -⟩ | ⟨h, -⟩) <;> cases h

/-! ## The hypotheses are met -/

example : exTeam.Admissible := ⟨by decide, by decide, by decide, by decide⟩

/-- a run with a new axis, a round that continues and a second call -/
example : Word solveEquilibrium (first solveEquilibrium) := first_word _

example : 300 < (first solveEquilibrium).length := by decide +kernel

example : Word nestorUpdate (first nestorUpdate) := first_word _

end Verif.Race
