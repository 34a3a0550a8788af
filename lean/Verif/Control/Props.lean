import Verif.Control.Stage

/-!
# Properties C14 – C21: one multigrid stage

`stage e nv c m x0 s` is `InitializeRadial` followed by `SolveEquilibrium`.  `e` fixes the input
values and, as arbitrary functions, everything the forward model, the time step, the axis guess and
the interrupt callback may answer.  `s` is the state left by whatever happened before the stage.
`(stage ..).2.log` is the history of the stage, newest event first.
-/
namespace Verif.Control
open Verif

variable {X V : Type} (e : Env X V) (nv : Int) (c m : Bool) (x0 : X) (s : St X V)

/-! ## concrete runs used to show that hypotheses can be met -/

namespace Demo

/-- a forward model that delivers the given residuals three times each -/
def res (q : ℚ) : Phys :=
  { badJacobian := false, tconError := false, vacuumError := false, solverError := false,
    fsqr := .fin q, fsqz := .fin q, fsql := .fin q, fsqr1 := .fin q, fsqz1 := .fin q,
    fsql1 := .fin q }

def bad : Phys := { res 0 with badJacobian := true }
def nan : Phys := { res 1 with fsqz := .nan }

/-- geometry and velocity are counters -/
def env (f : Nat → Phys) (freeb : Bool := false) (ftol : ℚ := 1 / 10 ^ 12) : Env Int Int :=
  { lfreeb := freeb, niter := 200, ftol := .fin ftol, delt := 9 / 10, ns := 5, zeroX := 0, zeroV := 0,
    guess := fun _ => 100, phys := f, adv := fun _ _ _ x v => (x + 1, v + 1) }

def start : St Int Int :=
  { x := 0, v := 0, backup := 0, fsqr := .fin 1, fsqz := .fin 1, fsql := .fin 1, fsqr1 := .fin 1,
    fsqz1 := .fin 1, fsql1 := .fin 1, fsq := .fin 1, res0 := .fin (-1), res1 := .fin (-1),
    delt0r := 1, ijacob := 0, iter1 := 1, iter2 := 1, restart := .noRestart, status := .normal,
    liter := true, lreset := false, vac := .off, nvacskip := 6, ivacskip := 0,
    interrupted := false, damp := [], evals := 0, tries := 0, log := [] }

/-- converges at the third evaluation -/
def good : Nat → Phys := fun n => if n < 2 then res 1 else res 0

/-- the first evaluation is bad, then 30 bad ones in the middle of the run, then convergence -/
def rough : Nat → Phys := fun n =>
  if n = 0 then bad else if n = 1 then res 1 else if n < 32 then bad else if n < 34 then res 1 else res 0

/-- never a usable Jacobian after the first step -/
def hopeless : Nat → Phys := fun n => if n = 0 then res 1 else bad

def run (e : Env Int Int) : StageRet × St Int Int := stage e 6 false true 7 start

end Demo

/-! ## C14 -/

/-- **C14**: whatever the oracles answer, a stage makes at most four passes through
`SolveEquilibriumLoop` and at most `4 * niter` force evaluations. -/
theorem C14_termination :
    evaluations (stage e nv c m x0 s).2.log ≤ 4 * e.niter.toNat ∧ (stage e nv c m x0 s).2.tries ≤ 4 ∧
    (stage e nv c m x0 s).2.evals = s.evals + evaluations (stage e nv c m x0 s).2.log := by
  obtain ⟨b1, b2, b3, b4, b5, b6, b7⟩ := begun_misc e nv c m x0 s
  have hb : EvalInv s.evals (begun e nv c m x0 s) := by
    constructor
    rcases begun_log e nv c m x0 s with h | h <;> rw [h, b5] <;> rfl
  have ht := (lastState_reach e nv c m x0 s).inv (I := EvalInv s.evals) (prim_evals e _)
    (fun s hs => ⟨hs.val⟩) hb
  obtain ⟨k1, k2⟩ := lastState_bounds e nv c m x0 s
  have := ht.val
  have k3 : evaluations (lastState e nv c m x0 s).log ≤ 4 * e.niter.toNat := by omega
  rcases stage_state e nv c m x0 s with h2 | ⟨-, h2⟩ <;> rw [h2] <;>
    exact ⟨k3, k2, this⟩

/-- **C14**, one attempt: at most `niter` force evaluations. -/
theorem C14_attempt (h1 : 1 ≤ s.iter2) :
    (solveEquilibriumLoop e s).2.evals ≤ s.evals + e.niter.toNat := by
  exact (solveEquilibriumLoop_spec e s h1).2.1

/-- **C14**, the structural recursion of the model is the loop of the code: running the loop is
running one pass and then the loop again, until the counter exceeds `niter` or the flag drops. -/
theorem C14_loop_is_loop (fi b : Int) :
    loop e (e.niter + 1 - fi).toNat fi b s =
      if fi ≤ e.niter ∧ s.liter = true then
        match iterate e fi b s with
        | .next s' b' => loop e (e.niter + 1 - (fi + 1)).toNat (fi + 1) b' s'
        | .stop r s' => (r, s')
      else (.normal, s) :=
  loop_unfold e fi b s

example : (Demo.run (Demo.env Demo.rough)).2.status = .success ∧
    evaluations (Demo.run (Demo.env Demo.rough)).2.log = 35 ∧
    (Demo.run (Demo.env Demo.rough)).2.tries = 3 := by decide +kernel

/-! ## C15 -/

/-- **C15** (partial): success is only reported when the last force evaluation delivered three
finite residuals that are all at most the tolerance, and the state handed on is the evaluated one
unless a rollback to the checkpoint happened after the evaluation.  The full statement would drop
the last alternative; it is false, see `C15_rollback_after_success`. -/
theorem C15_success_partial (hn : 1 ≤ e.niter)
    (hv : e.lfreeb = true → 1 ≤ (if m then nv else s.nvacskip))
    (h : (stage e nv c m x0 s).2.status = .success) :
    ∃ x fr fz fl,
      lastEvaluated (stage e nv c m x0 s).2.log = some x ∧
      lastResult (stage e nv c m x0 s).2.log = some (.residuals fr fz fl) ∧
      WithinTolerance e.ftol fr fz fl ∧
      ((stage e nv c m x0 s).2.x = x ∨
        ∃ ev ∈ sinceEvaluation (stage e nv c m x0 s).2.log, Ev.isRestore ev = true) :=
  (stage_final e nv c m x0 s hn hv).succ h

example : (Demo.run (Demo.env Demo.good)).2.status = .success ∧
    (Demo.run (Demo.env Demo.good)).2.x = 9 ∧ 1 ≤ (Demo.env Demo.good).niter := by decide +kernel

/-- **C15**, disagreement with the code: in a free-boundary run the forward model may roll the
geometry back (soft restart when the vacuum pressure is switched on) and still deliver small
residuals for the geometry it evaluated before the rollback.  The stage then reports success for a
geometry (here 7) whose own evaluation gave residuals far above the tolerance. -/
theorem C15_rollback_after_success : ∃ (e : Env Int Int) (s : St Int Int),
    (stage e 6 false true 7 s).1 = .done ∧ (stage e 6 false true 7 s).2.status = .success ∧
    lastEvaluated (stage e 6 false true 7 s).2.log = some 8 ∧ (stage e 6 false true 7 s).2.x = 7 ∧
    ∃ later earlier, (stage e 6 false true 7 s).2.log =
      later ++ .result (.residuals (.fin (1 / 10 ^ 4)) (.fin (1 / 10 ^ 4)) (.fin (1 / 10 ^ 4))) ::
        .evaluate 7 :: earlier ∧
      e.ftol = .fin (1 / 10 ^ 12) ∧ evaluations later = 1 ∧ .evaluate 7 ∉ later := by
  refine ⟨Demo.env (fun n => if n < 1 then Demo.res (1 / 10 ^ 4) else Demo.res 0) true, Demo.start, ?_⟩
  refine ⟨by decide +kernel, by decide +kernel, by decide +kernel, by decide +kernel,
    (stage (Demo.env (fun n => if n < 1 then Demo.res (1 / 10 ^ 4) else Demo.res 0) true) 6 false true
      7 Demo.start).2.log.take 9, [.save 7], ?_⟩
  decide +kernel

/-! ## C16 -/

/-- **C16**: the geometry is never advanced after an evaluation with a non-finite residual. -/
theorem C16_no_advance_after_nonfinite (later earlier : List (Ev X V)) (dt : ℚ) (x : X) (v : V)
    (h : (stage e nv c m x0 s).2.log = later ++ .advance dt x v :: earlier) (fr fz fl : D)
    (hr : lastResult earlier = some (.residuals fr fz fl)) :
    (∃ q, fr = .fin q) ∧ (∃ q, fz = .fin q) ∧ (∃ q, fl = .fin q) := by
  have hb : ResInv (begun e nv c m x0 s) := by
    rcases begun_log e nv c m x0 s with h | h <;> constructor <;> rw [h] <;>
      simp [lastResult, All, ResOk]
  have ht := stage_inv e nv c m x0 s (I := ResInv) (prim_res e) (fun s hs => ⟨hs.val, hs.all⟩)
    (fun s hs => ⟨hs.val, hs.all⟩) hb
  have := ht.all.split h fr fz fl hr
  simpa only [isFinite_iff] using this

/-- **C16**: a stage whose last evaluation has a non-finite residual never ends with success. -/
theorem C16_not_success (hn : 1 ≤ e.niter)
    (hv : e.lfreeb = true → 1 ≤ (if m then nv else s.nvacskip)) (fr fz fl : D)
    (hr : lastResult (stage e nv c m x0 s).2.log = some (.residuals fr fz fl))
    (hf : ¬ ((∃ q, fr = .fin q) ∧ (∃ q, fz = .fin q) ∧ (∃ q, fl = .fin q))) :
    (stage e nv c m x0 s).2.status ≠ .success := by
  intro h
  obtain ⟨x, a, b, d, -, h2, h3, -⟩ := (stage_final e nv c m x0 s hn hv).succ h
  rw [hr] at h2
  injection h2 with h2
  injection h2 with h4 h5 h6
  subst h4; subst h5; subst h6
  exact hf ⟨h3.1, h3.2.1, h3.2.2.1⟩

example : (Demo.run (Demo.env (fun n => if n < 2 then Demo.res 1 else Demo.nan))).2.status
      = .badJacobian ∧
    lastResult (Demo.run (Demo.env (fun n => if n < 2 then Demo.res 1 else Demo.nan))).2.log =
      some (.residuals (.fin 1) .nan (.fin 1)) ∧
    (Demo.run (Demo.env (fun n => if n < 2 then Demo.res 1 else Demo.nan))).2.x = 100 := by
  decide +kernel

/-! ## C17 -/

/-- **C17**: the counter only grows, the axis is re-guessed at most once and only before the first
reset, the time step is reset at most once at 25 and at most once at 50, and the stage gives up only
when the counter has reached 75. -/
theorem C17_escalation (later earlier : List (Ev X V)) (ev : Ev X V)
    (h : (stage e nv c m x0 s).2.log = later ++ ev :: earlier) :
    (∀ n, ev = .counter n → counterValue earlier < n) ∧
    (ev = .axisGuess → counterValue earlier = 0 ∧ .axisGuess ∉ earlier) ∧
    (∀ n, ev = .stepReset n → (n = 25 ∨ n = 50) ∧ .stepReset n ∉ earlier) ∧
    (ev = .giveUp → 75 ≤ counterValue earlier) := by
  have ht := stage_inv e nv c m x0 s (I := CntInv) (prim_cnt e)
    (fun s hs => ⟨hs.val, hs.nonneg, hs.axis, hs.r25, hs.r50, hs.all⟩)
    (fun s hs => ⟨hs.val, hs.nonneg, hs.axis, hs.r25, hs.r50, hs.all⟩) (begun_head e nv c m x0 s).cnt
  have := ht.all.split h
  refine ⟨?_, ?_, ?_, ?_⟩
  · rintro n rfl; exact this
  · rintro rfl; exact this
  · rintro n rfl; exact this
  · rintro rfl; exact this

/-- **C17**: once the counter has reached 75 at most one further force evaluation is made and the
stage does not end with success. -/
theorem C17_give_up (hn : 1 ≤ e.niter)
    (hv : e.lfreeb = true → 1 ≤ (if m then nv else s.nvacskip)) :
    evaluationsBeyond75 (stage e nv c m x0 s).2.log ≤ 1 ∧
    (evaluationsBeyond75 (stage e nv c m x0 s).2.log ≠ 0 →
      (stage e nv c m x0 s).2.status ≠ .success) ∧
    (.giveUp ∈ (stage e nv c m x0 s).2.log → (stage e nv c m x0 s).2.status ≠ .success) := by
  have := stage_final e nv c m x0 s hn hv
  exact ⟨this.beyond, this.high, this.give⟩

example : (Demo.run (Demo.env Demo.hopeless)).2.status = .jacobian75 ∧
    evaluations (Demo.run (Demo.env Demo.hopeless)).2.log = 77 ∧
    evaluationsBeyond75 (Demo.run (Demo.env Demo.hopeless)).2.log = 1 ∧
    .stepReset 25 ∈ (Demo.run (Demo.env Demo.hopeless)).2.log ∧
    .stepReset 50 ∈ (Demo.run (Demo.env Demo.hopeless)).2.log ∧
    .giveUp ∈ (Demo.run (Demo.env Demo.hopeless)).2.log := by decide +kernel

/-! ## C18 -/

/-- **C18**: every time step used to advance the geometry is positive and at most `delt`. -/
theorem C18_time_step (hd : 0 < e.delt) (later earlier : List (Ev X V)) (dt : ℚ) (x : X) (v : V)
    (h : (stage e nv c m x0 s).2.log = later ++ .advance dt x v :: earlier) :
    0 < dt ∧ dt ≤ e.delt := by
  obtain ⟨b1, b2, b3, -⟩ := begun_misc e nv c m x0 s
  have hb : StepInv e (begun e nv c m x0 s) := by
    refine ⟨by rw [b3]; exact hd, by rw [b3], ?_⟩
    rcases begun_log e nv c m x0 s with h | h <;> rw [h] <;> simp [All, StepOk]
  have ht := stage_inv e nv c m x0 s (I := StepInv e) (prim_step e hd)
    (fun s hs => ⟨hs.pos, hs.le, hs.all⟩) (fun s hs => ⟨hs.pos, hs.le, hs.all⟩) hb
  exact ht.all.split h

/-- the time step really shrinks -/
example : 0 < (Demo.env Demo.hopeless).delt ∧
    (Demo.run (Demo.env Demo.hopeless)).2.log.any
      (fun ev => match ev with | .advance dt _ _ => decide (dt < 1 / 10) | _ => false) = true := by
  decide +kernel

/-! ## C19 -/

theorem stage_geom : GeomInv e (if m then x0 else s.backup) (if m then x0 else s.x)
    (if m then e.zeroV else s.v) (stage e nv c m x0 s).2 := by
  have hb : GeomInv e (if m then x0 else s.backup) (if m then x0 else s.x)
      (if m then e.zeroV else s.v) (begun e nv c m x0 s) := by
    have l : (begun e nv c m x0 s).log = [] ∨ (begun e nv c m x0 s).log = [.save x0] ∧ m = true := by
      unfold begun initializeRadial saveState St.emit
      dsimp only
      cases m
      · left; simp only [Bool.false_eq_true, if_false]; split <;> rfl
      · right; simp only [if_true]; split <;> simp
    refine ⟨?_, ?_, ?_, ?_⟩
    · rw [begun_x]; rcases l with l | ⟨l, rfl⟩ <;> rw [l] <;> rfl
    · rw [begun_v]; rcases l with l | ⟨l, rfl⟩ <;> rw [l] <;> rfl
    · rw [begun_backup]; rcases l with l | ⟨l, rfl⟩ <;> rw [l] <;> rfl
    · rcases l with l | ⟨l, rfl⟩ <;> rw [l] <;> simp [All, GeomOk, geometry]
  exact stage_inv e nv c m x0 s (I := GeomInv e _ _ _) (prim_geom e _ _ _)
    (fun s hs => ⟨hs.x, hs.v, hs.backup, hs.all⟩) (fun s hs => ⟨hs.x, hs.v, hs.backup, hs.all⟩) hb

/-- **C19**: every rollback puts the geometry saved last (before the stage if nothing has been saved
yet) and zero velocities; every evaluation and every time step starts from the geometry and velocity
produced last, so nothing happens between a rollback and the next use of the state. -/
theorem C19_rollback (later earlier : List (Ev X V)) (ev : Ev X V)
    (h : (stage e nv c m x0 s).2.log = later ++ ev :: earlier) :
    let x₀ := if m then x0 else s.x
    let v₀ := if m then e.zeroV else s.v
    (∀ x v, ev = .restore x v →
      x = lastSaved (if m then x0 else s.backup) earlier ∧ v = e.zeroV) ∧
    (∀ x, ev = .evaluate x → x = e.mask (geometry x₀ earlier)) ∧
    (∀ x, ev = .save x → x = geometry x₀ earlier) ∧
    (∀ dt x v, ev = .advance dt x v →
      ∃ n hist, (x, v) = e.adv n hist dt (geometry x₀ earlier) (velocity v₀ earlier)) := by
  have ht := stage_geom e nv c m x0 s
  have := ht.all.split h
  refine ⟨?_, ?_, ?_, ?_⟩
  · rintro x v rfl; exact this
  · rintro x rfl; exact this
  · rintro x rfl; exact this
  · rintro dt x v rfl; exact this

/-- **C19**: the state at the end of the stage is the one the history says, so a final rollback is
not undone. -/
theorem C19_final_state :
    (stage e nv c m x0 s).2.x = geometry (if m then x0 else s.x) (stage e nv c m x0 s).2.log ∧
    (stage e nv c m x0 s).2.v = velocity (if m then e.zeroV else s.v) (stage e nv c m x0 s).2.log :=
  ⟨(stage_geom e nv c m x0 s).x, (stage_geom e nv c m x0 s).v⟩

/-- rollbacks do happen: the checkpoint 7 is restored after the geometry had moved on to 8 -/
example : ∃ later earlier, (Demo.run (Demo.env Demo.hopeless)).2.log =
    later ++ .restore 7 0 :: earlier ∧ geometry 7 earlier = 8 ∧ lastSaved 0 earlier = 7 :=
  ⟨(Demo.run (Demo.env Demo.hopeless)).2.log.take 1, (Demo.run (Demo.env Demo.hopeless)).2.log.drop 2,
    by decide +kernel⟩

/-! ## C20 -/

/-- **C20** (partial): the vacuum state moves forward one state at a time, is switched on only when the
residual sum is below the threshold, and the geometry is never advanced between switching the vacuum
pressure on and the soft restart.  Missing: on a continuation stage, where the vacuum state starts as
"initialized", the soft restart can be skipped (`C20_soft_restart_skipped`). -/
theorem C20_vacuum_partial (later earlier : List (Ev X V)) (a b : VacState) (sum : D)
    (h : (stage e nv c m x0 s).2.log = later ++ .vac a b sum :: earlier) :
    a = vacuumState (if e.lfreeb = true ∧ c = true ∧ s.vac = .active then .initialized else s.vac)
      earlier ∧
    ((a = .off ∧ b = .initializing) ∨ (a = .initializing ∧ b = .initialized) ∨
      (a = .initialized ∧ b = .active)) ∧
    (a = .off → (∃ q, sum = .fin q ∧ q < 1 / 1000) ∨ sum = .ninf) := by
  have hb : VacInv (if e.lfreeb = true ∧ c = true ∧ s.vac = .active then .initialized else s.vac)
      (begun e nv c m x0 s) := by
    constructor
    · rw [begun_vac]; rcases begun_log e nv c m x0 s with h | h <;> rw [h] <;> rfl
    · rcases begun_log e nv c m x0 s with h | h <;> rw [h] <;> simp [All, VacOk]
  have ht := stage_inv e nv c m x0 s (I := VacInv _) (prim_vac e _)
    (fun s hs => ⟨hs.val, hs.all⟩) (fun s hs => ⟨hs.val, hs.all⟩) hb
  obtain ⟨h1, h2, h3, h4⟩ := ht.all.split h
  refine ⟨h1, ?_, ?_⟩
  · clear h h1 h4 ht hb
    subst h2
    cases a <;> simp [VacState.succ] at h3 ⊢
  · intro ha
    have h5 := h4 ha
    clear h h1 h2 h3 h4 ht hb
    cases sum with
    | fin q => left; exact ⟨q, rfl, by simpa [D.lt] using h5⟩
    | ninf => right; rfl
    | pinf => simp [D.lt] at h5
    | nan => simp [D.lt] at h5

example : .vac .off .initializing (.fin (2 / 10 ^ 4)) ∈
    (Demo.run (Demo.env (fun _ => Demo.res (1 / 10 ^ 4)) true)).2.log ∧
    .vac .initialized .active (.fin (2 / 10 ^ 4)) ∈
    (Demo.run (Demo.env (fun _ => Demo.res (1 / 10 ^ 4)) true)).2.log := by
  decide +kernel

theorem C20_soft_restart_partial (hn : 1 ≤ e.niter)
    (hv : e.lfreeb = true → 1 ≤ (if m then nv else s.nvacskip))
    (later earlier : List (Ev X V)) (dt : ℚ) (x : X) (v : V)
    (h : (stage e nv c m x0 s).2.log = later ++ .advance dt x v :: earlier) :
    softRestartPending earlier = false := by
  have := (stage_final e nv c m x0 s hn hv).all.split h
  exact this

/-- **C20**, disagreement with the code: a continuation stage entered with active vacuum coupling
marks it as initialized again so that the soft restart is repeated, but the residuals of the previous
stage are still small, so the first evaluation moves straight to active and no rollback happens. -/
theorem C20_soft_restart_skipped : ∃ (e : Env Int Int) (s : St Int Int),
    s.vac = .active ∧ (stage e 6 true true 7 s).2.status = .success ∧
    (∃ sum, .vac .initialized .active sum ∈ (stage e 6 true true 7 s).2.log) ∧
    (∃ dt x v, .advance dt x v ∈ (stage e 6 true true 7 s).2.log) ∧
    ∀ ev ∈ (stage e 6 true true 7 s).2.log, Ev.isRestore ev = false := by
  refine ⟨Demo.env Demo.good true, { Demo.start with vac := .active, fsqr := .fin 0, fsqz := .fin 0 },
    rfl, by decide +kernel, ⟨.fin 0, by decide +kernel⟩, ⟨9 / 10, 8, 1, by decide +kernel⟩, ?_⟩
  decide +kernel

/-! ## C21 -/

/-- **C21**: the update interval starts at the user's value, never decreases, never exceeds
`max(value, 10)`, and no modulo by zero happens. -/
theorem C21_interval (later earlier : List (Ev X V)) (n : Int)
    (h : (stage e nv c m x0 s).2.log = later ++ .interval n :: earlier) :
    intervalValue (if m then nv else s.nvacskip) earlier ≤ n ∧
    n ≤ max (if m then nv else s.nvacskip) 10 := by
  have ht := stage_inv e nv c m x0 s (I := IntervalInv _) (prim_interval e _)
    (fun s hs => ⟨hs.lo, hs.hi, hs.val, hs.all⟩) (fun s hs => ⟨hs.lo, hs.hi, hs.val, hs.all⟩)
    (begun_interval e nv c m x0 s)
  exact ht.all.split h

theorem C21_no_zero_modulus (hv : e.lfreeb = true → 1 ≤ (if m then nv else s.nvacskip)) :
    (stage e nv c m x0 s).1 ≠ .ub ∧
    (e.lfreeb = true → 1 ≤ (stage e nv c m x0 s).2.nvacskip) := by
  refine ⟨stage_not_ub e nv c m x0 s hv, fun hf => ?_⟩
  have ht := stage_inv e nv c m x0 s (I := IntervalInv _) (prim_interval e _)
    (fun s hs => ⟨hs.lo, hs.hi, hs.val, hs.all⟩) (fun s hs => ⟨hs.lo, hs.hi, hs.val, hs.all⟩)
    (begun_interval e nv c m x0 s)
  have := hv hf
  have := ht.lo
  omega

/-- the modulus matters: with a zero interval the modelled code is undefined -/
example : (stage (Demo.env (fun _ => Demo.res (1 / 10 ^ 4)) true) 0 false true 7 Demo.start).1 = .ub := by
  decide +kernel

end Verif.Control
