import Verif.PyDriver.Clean
import Verif.Control.Props

/-!
# C39: the Python and the C++ driver
-/
namespace Verif.PyDriver
open Verif Verif.Control

variable {X V : Type}

theorem Close.spec {s m : St X V} (h : Close s m) : ∃ tail mid, s.log = tail ++ mid ∧ actions mid = actions m.log ∧
    (∀ ev ∈ tail, quiet ev = true) ∧ ((∀ ev ∈ tail, rollsBack ev = false) → s.x = m.x ∧ s.v = m.v) := by
  obtain ⟨s0, ho, ⟨l, e1, q, r⟩, -, -⟩ := h
  exact ⟨l, s0.log, e1, ho.act, q, fun hr => ⟨(r hr).1.trans ho.x, (r hr).2.trans ho.v⟩⟩

/-- the stage starts with matching states -/
theorem start_head {e : Env X V} {nv : Int} {x0 : X} {s : St X V} (hp : Pos s) (hi : s.interrupted = false) :
    Head e 1 0 { { initializeRadial e nv false true x0 { s with log := [], tries := 0 } with liter := true, lreset := false } with status := .normal }
      { start e (initializeRadial e nv false true x0 { s with log := [], tries := 0 }) with mustRetry := false } := by
  have h : ¬ (e.lfreeb = true ∧ false = true ∧ s.vac = .active) := by simp
  unfold initializeRadial
  dsimp only
  simp only [if_neg h, if_true]
  refine ⟨⟨⟨rfl, rfl, rfl, rfl, rfl, rfl, rfl, rfl, rfl, rfl, rfl⟩, rfl, rfl, fun _ => rfl, rfl, rfl, rfl, rfl, hp, Or.inl ⟨rfl, fun _ => rfl⟩, ?_, hi⟩,
    rfl, rfl, ?_, by omega, ⟨rfl, rfl, rfl, rfl, rfl⟩, ?_⟩
  · show (1 : Int) ≤ 1; omega
  · show (1 : Int) = 1 - 0; omega
  · show (0 : Int) ≤ 0; omega

/-- **C39** (partial): for a fixed-boundary stage that is not interrupted, with residuals that are not negative, a tolerance of at most 33 and at
least two iterations allowed, consider the Python driver with the style that corresponds to the C++ setting (`vmec_8_52` or `parvmec`).  If its run
leaves no harmful note (see `harmless` and `Note`), both drivers end with the same verdict, and the C++ history is the Python history - the same
evaluations with the same results, time steps with the same step sizes and geometries, checkpoints, rollbacks and new initial geometries in the same
order - followed by a tail that evaluates nothing and does no time step.  Without a rollback in that tail, geometry and velocity agree in the end.
Missing: the notes; for each of the harmful ones the drivers do differ (theorems below), free boundary, the `robust` style (which C++ does not have). -/
theorem C39_partial (e : Env X V) (hfix : e.lfreeb = false) (hint : ∀ n, e.interrupt n = false)
    (hpos : ∀ n, isNeg (D.add (D.add (e.phys n).fsqr1 (e.phys n).fsqz1) (e.phys n).fsql1) = false ∧
      isNeg (D.add (D.add (e.phys n).fsqr (e.phys n).fsqz) (e.phys n).fsql) = false)
    (q : ℚ) (hq : e.ftol = .fin q) (h33 : q ≤ 33) (hn : 2 ≤ e.niter) (nv : Int) (x0 : X) (s : St X V) (hi : s.interrupted = false)
    (hs : isNeg (D.add (D.add s.fsqr1 s.fsqz1) s.fsql1) = false ∧ isNeg (D.add (D.add s.fsqr s.fsqz) s.fsql) = false)
    (hN : ∀ n ∈ (solve e (styleOf e) nv (initializeRadial e nv false true x0 { s with log := [], tries := 0 })).2.notes, harmless e.zeroV n) :
    cppVerdict (stage e nv false true x0 s) =
        pyVerdict (solve e (styleOf e) nv (initializeRadial e nv false true x0 { s with log := [], tries := 0 })) ∧
    ∃ tail mid, (stage e nv false true x0 s).2.log = tail ++ mid ∧
      actions mid = actions (solve e (styleOf e) nv (initializeRadial e nv false true x0 { s with log := [], tries := 0 })).2.m.log ∧
      (∀ ev ∈ tail, quiet ev = true) ∧
      ((∀ ev ∈ tail, rollsBack ev = false) →
        (stage e nv false true x0 s).2.x = (solve e (styleOf e) nv (initializeRadial e nv false true x0 { s with log := [], tries := 0 })).2.m.x ∧
        (stage e nv false true x0 s).2.v = (solve e (styleOf e) nv (initializeRadial e nv false true x0 { s with log := [], tries := 0 })).2.m.v) ∧
      (cppVerdict (stage e nv false true x0 s) = .exhausted → tail = []) := by
  have E : Setting e := ⟨hfix, hint, hpos, q, hq, h33⟩
  have hH := start_head (e := e) (nv := nv) (x0 := x0) (s := s) hs hi
  have hr : (initializeRadial e nv false true x0 { s with log := [], tries := 0 }).restart = .noRestart := by
    have h : ¬ (e.lfreeb = true ∧ false = true ∧ s.vac = .active) := by simp
    unfold initializeRadial
    dsimp only
    simp only [if_neg h, if_true]
    rfl
  unfold stage solveEquilibrium
  unfold solve at hN ⊢
  generalize initializeRadial e nv false true x0 { s with log := [], tries := 0 } = m at *
  have hO := solve_rel E (nv := nv) e.niter.toNat hH rfl hr rfl (by omega) rfl hN
  dsimp only
  generalize Control.attempts e e.niter.toNat .mustRetry { m with liter := true, lreset := false } = c at *
  generalize attempts e (styleOf e) nv e.niter.toNat (start e m) = w at *
  cases hO with
  | exhausted r s' p' hr' h hs' hf =>
    have hnot : ¬ s'.interrupted = true := by simp [h.intr]
    dsimp only
    rw [if_neg hnot]
    rcases hr' with rfl | rfl <;> dsimp only <;>
      refine ⟨?_, [], s'.log, rfl, h.obj.act, by simp, fun _ => ⟨h.obj.x, h.obj.v⟩, fun _ => rfl⟩ <;>
      simp [cppVerdict, pyVerdict, hs', hf.1, hf.2]
  | converged r s' p' hr' hs' hp hq' hI =>
    have hnot : ¬ s'.interrupted = true := by simp [hI]
    obtain ⟨tail, mid, k1, k2, k3, k4⟩ := hq'.spec
    dsimp only
    rw [if_neg hnot]
    rcases hr' with rfl | rfl <;> dsimp only <;> refine ⟨?_, tail, mid, k1, k2, k3, k4, ?_⟩ <;>
      simp [cppVerdict, pyVerdict, hs', hp]
  | failed r s' p' hr' hp hq' hI =>
    have hnot : ¬ s'.interrupted = true := by simp [hI]
    obtain ⟨tail, mid, k1, k2, k3, k4⟩ := hq'.spec
    have hpy : pyVerdict ((.returned, p') : End × PSt X V) = .failed := by simp [pyVerdict, hp.1, hp.2]
    dsimp only
    rw [if_neg hnot, hpy]
    rcases hr' with rfl | ⟨rfl, h⟩
    · dsimp only
      rw [if_neg (by simp)]
      refine ⟨rfl, tail, mid, k1, k2, k3, k4, ?_⟩
      simp [cppVerdict]
    · refine ⟨?_, tail, mid, k1, k2, k3, k4, ?_⟩
      · rcases h with h | h <;> simp [cppVerdict, h]
      · rcases h with h | h <;> simp [cppVerdict, h]
  | raised s' p' r hq' hI =>
    have hnot : ¬ s'.interrupted = true := by simp [hI]
    obtain ⟨tail, mid, k1, k2, k3, k4⟩ := hq'.spec
    dsimp only
    rw [if_neg hnot]
    split
    · refine ⟨rfl, tail, mid, k1, k2, k3, k4, ?_⟩
      simp [cppVerdict]
    · refine ⟨rfl, tail, mid, k1, k2, k3, k4, ?_⟩
      simp [cppVerdict]

/-- **C39** (partial), in terms of the forward model alone: if it delivers finite residuals and a positive preconditioned residual sum, has a usable
Jacobian at every evaluation after the first one and does not start with huge forces, the two drivers take the same actions, and both converge, both
run out of iterations or both fail, provided that the bad-Jacobian counter stays below 75.  The bad-Jacobian counter can still grow (from steps
that increase the residual a hundredfold).  Missing: forward models with a bad Jacobian later in the run, where the claim is false. -/
theorem C39_usable_jacobian_partial (e : Env X V) (hfix : e.lfreeb = false) (hint : ∀ n, e.interrupt n = false)
    (hjac : ∀ n, 1 ≤ n → (e.phys n).badJacobian = false)
    (hfin : ∀ n, (e.phys n).fsqr.isFinite = true ∧ (e.phys n).fsqz.isFinite = true ∧ (e.phys n).fsql.isFinite = true)
    (hinv : ∀ n, isNeg (D.add (D.add (e.phys n).fsqr (e.phys n).fsqz) (e.phys n).fsql) = false)
    (hsum : ∀ n, ∃ r : ℚ, 0 < r ∧ D.add (D.add (e.phys n).fsqr1 (e.phys n).fsqz1) (e.phys n).fsql1 = .fin r)
    (hhuge : (e.phys 0).badJacobian = true ∨ D.lt (.fin 100) (D.add (D.add (e.phys 0).fsqr (e.phys 0).fsqz) (e.phys 0).fsql) = false)
    (q : ℚ) (hq : e.ftol = .fin q) (h33 : q ≤ 33) (hn : 2 ≤ e.niter) (nv : Int) (x0 : X) (s : St X V) (hi : s.interrupted = false) (hev : s.evals = 0)
    (hs : isNeg (D.add (D.add s.fsqr1 s.fsqz1) s.fsql1) = false ∧ isNeg (D.add (D.add s.fsqr s.fsqz) s.fsql) = false)
    (h75 : (solve e (styleOf e) nv (initializeRadial e nv false true x0 { s with log := [], tries := 0 })).2.ijacob < 75) :
    cppVerdict (stage e nv false true x0 s) =
        pyVerdict (solve e (styleOf e) nv (initializeRadial e nv false true x0 { s with log := [], tries := 0 })) ∧
    ∃ tail mid, (stage e nv false true x0 s).2.log = tail ++ mid ∧
      actions mid = actions (solve e (styleOf e) nv (initializeRadial e nv false true x0 { s with log := [], tries := 0 })).2.m.log ∧
      (∀ ev ∈ tail, quiet ev = true) ∧
      ((∀ ev ∈ tail, rollsBack ev = false) →
        (stage e nv false true x0 s).2.x = (solve e (styleOf e) nv (initializeRadial e nv false true x0 { s with log := [], tries := 0 })).2.m.x ∧
        (stage e nv false true x0 s).2.v = (solve e (styleOf e) nv (initializeRadial e nv false true x0 { s with log := [], tries := 0 })).2.m.v) ∧
      (cppVerdict (stage e nv false true x0 s) = .exhausted → tail = []) := by
  have hpos : ∀ n, isNeg (D.add (D.add (e.phys n).fsqr1 (e.phys n).fsqz1) (e.phys n).fsql1) = false ∧
      isNeg (D.add (D.add (e.phys n).fsqr (e.phys n).fsqz) (e.phys n).fsql) = false := by
    intro n
    obtain ⟨r, hr, e1⟩ := hsum n
    refine ⟨?_, hinv n⟩
    rw [e1]
    simp [isNeg, le_of_lt hr]
  have C : CleanEnv e := ⟨hfix, hjac, hfin, hsum, hhuge⟩
  have k := initializeRadial_keeps e nv x0 { s with log := [], tries := 0 }
  have hF := solve_clean C (styleOf e) nv (m := initializeRadial e nv false true x0 { s with log := [], tries := 0 })
    (k.2.2.2.2.2.2.trans hev) rfl
  refine C39_partial e hfix hint hpos q hq h33 hn nv x0 s hi hs ?_
  intro n hmem
  rcases hF n hmem with h | h
  · exact h
  · rw [h]; exact h75

/-! ## The damping coefficients -/

/-- **C39** (partial): the two drivers compute the same array of damping values from the same history, unless the residual sum is exactly zero at
an iteration that is not the first one after a restart.  Missing: that case (`C39_zero_residual`). -/
theorem C39_damping_partial {α : Type} (reset : ℚ → α) (zero : α) (entry : ℚ → D → D → α) (h0 : List α) (l : List Damp)
    (h : ∀ d ∈ l, ¬ (d.iter2 > d.iter1 ∧ d.new = .fin 0)) :
    l.foldr (dampCpp reset zero entry) h0 = l.foldr (dampPy reset entry) h0 := by
  induction l with
  | nil => rfl
  | cons d t ih =>
    have hd := h d (by simp)
    rw [List.foldr_cons, List.foldr_cons, ih fun d hd => h d (List.mem_cons_of_mem _ hd)]
    unfold dampCpp dampPy
    dsimp only
    by_cases c : d.iter2 > d.iter1
    · have hn : d.new ≠ .fin 0 := fun q => hd ⟨c, q⟩
      rw [if_pos c, if_pos hn, if_pos (⟨c, hn⟩ : d.iter2 > d.iter1 ∧ d.new ≠ .fin 0)]
    · have hn : ¬ (d.iter2 > d.iter1 ∧ d.new ≠ .fin 0) := fun q => c q.1
      rw [if_neg c, if_neg hn]

/-- what the array held before the first time step does not matter, because that step overwrites it -/
theorem C39_damping_start {α : Type} (reset : ℚ → α) (zero : α) (entry : ℚ → D → D → α) (g h : List α) (hl : g.length = h.length)
    (l : List Damp) (d : Damp) (hd : d.iter2 = d.iter1) :
    (l ++ [d]).foldr (dampCpp reset zero entry) g = (l ++ [d]).foldr (dampCpp reset zero entry) h := by
  rw [List.foldr_append, List.foldr_append]
  congr 1
  simp only [List.foldr_cons, List.foldr_nil, dampCpp, if_pos hd]
  have : g.map (fun _ => reset d.dt) = h.map (fun _ => reset d.dt) := by
    rw [List.map_const', List.map_const', hl]
  rw [this]

/-! ## Examples -/
namespace Demo
open Verif.Control.Demo

/-- the C++ driver -/
def cpp (e : Env Int Int) : StageRet × St Int Int := stage e 6 false true 7 Control.Demo.start

/-- the Python driver -/
def py (style : Style) (e : Env Int Int) : End × PSt Int Int :=
  solve e style 6 (initializeRadial e 6 false true 7 { Control.Demo.start with log := [], tries := 0 })

/-- same verdict and same actions -/
def agree (style : Style) (e : Env Int Int) : Bool :=
  cppVerdict (cpp e) = pyVerdict (py style e) ∧ actions (cpp e).2.log = actions (py style e).2.m.log

/-- an environment with the given number of iterations -/
def short (n : Int) (f : Nat → Phys) : Env Int Int := { env f with niter := n }

/-- residuals that shrink slowly -/
def slowly (n : Nat) : Phys := res (1 / (n + 1))

end Demo

/-- the theorem applies to a run with a bad first Jacobian, thirty bad Jacobians later on, an axis re-guess and a reset of the time step -/
example : (Demo.py .vmec852 (Control.Demo.env Control.Demo.rough)).2.notes = [.converged 31, .reguess 0] ∧
    pyVerdict (Demo.py .vmec852 (Control.Demo.env Control.Demo.rough)) = .converged ∧
    (Demo.cpp (Control.Demo.env Control.Demo.rough)).2.tries = 3 ∧
    actions (Demo.cpp (Control.Demo.env Control.Demo.rough)).2.log = actions (Demo.py .vmec852 (Control.Demo.env Control.Demo.rough)).2.m.log ∧
    (actions (Demo.cpp (Control.Demo.env Control.Demo.rough)).2.log).length = 136 := by decide +kernel

/-- all hypotheses of `C39_partial` hold for it -/
example : ∃ tail mid, (Demo.cpp (Control.Demo.env Control.Demo.rough)).2.log = tail ++ mid ∧
    actions mid = actions (Demo.py .vmec852 (Control.Demo.env Control.Demo.rough)).2.m.log ∧ ∀ ev ∈ tail, quiet ev = true := by
  obtain ⟨tail, mid, a, b, c, -⟩ := (C39_partial (Control.Demo.env Control.Demo.rough) rfl (fun _ => rfl) (by
    intro n
    show isNeg (D.add (D.add (Control.Demo.rough n).fsqr1 (Control.Demo.rough n).fsqz1) (Control.Demo.rough n).fsql1) = false ∧
      isNeg (D.add (D.add (Control.Demo.rough n).fsqr (Control.Demo.rough n).fsqz) (Control.Demo.rough n).fsql) = false
    unfold Control.Demo.rough
    repeat' split
    all_goals decide +kernel) (1 / 10 ^ 12) rfl (by norm_num) (by decide) 6 7 Control.Demo.start rfl (by decide +kernel) (by
    intro n hn
    have e1 : (solve (Control.Demo.env Control.Demo.rough) (styleOf (Control.Demo.env Control.Demo.rough)) 6 (initializeRadial
      (Control.Demo.env Control.Demo.rough) 6 false true 7 { Control.Demo.start with log := [], tries := 0 })).2.notes = [.converged 31, .reguess 0] := by
      decide +kernel
    rw [e1] at hn
    rcases List.mem_cons.1 hn with rfl | hn
    · show (31 : Int) < 75; omega
    · rcases List.mem_cons.1 hn with rfl | hn
      · rfl
      · cases hn)).2
  exact ⟨tail, mid, a, b, c⟩

/-- ... and to one that runs out of iterations, in both styles -/
example : Demo.agree .vmec852 (Demo.short 40 Demo.slowly) = true ∧ (Demo.py .vmec852 (Demo.short 40 Demo.slowly)).2.notes = [] ∧
    Demo.agree .parvmec { Demo.short 40 Demo.slowly with parvmec := true } = true ∧
    (Demo.py .parvmec { Demo.short 40 Demo.slowly with parvmec := true }).2.notes = [] := by decide +kernel

/-- a forward model as in `C39_usable_jacobian_partial` in which the counter grows: the residual jumps by more than a hundred twice -/
example : (∀ n, 1 ≤ n → ((fun n : Nat => if n % 9 = 8 then Control.Demo.res 200 else Demo.slowly n) n).badJacobian = false) ∧
    (Demo.py .vmec852 (Demo.short 20 fun n => if n % 9 = 8 then Control.Demo.res 200 else Demo.slowly n)).2.ijacob = 2 ∧
    Demo.agree .vmec852 (Demo.short 20 fun n => if n % 9 = 8 then Control.Demo.res 200 else Demo.slowly n) = true := by
  refine ⟨fun n _ => ?_, by decide +kernel, by decide +kernel⟩
  dsimp only
  split <;> rfl

/-! ## Where the drivers differ -/

/-- **C39**, disagreement: a bad Jacobian that comes when the last residual is the best one so far, more than ten iterations after the last restart.
The C++ loop rolls back inside the branch meant for checkpoints and does not count a reset, so its iteration counter goes on; the Python loop counts
one.  The next checkpoint comes one time step earlier in C++. -/
theorem C39_late_jacobian : ∃ e : Env Int Int, e.lfreeb = false ∧ e.parvmec = false ∧ (Demo.py .vmec852 e).2.notes = [.lateJacobian] ∧
    (Demo.cpp e).2.evals = (Demo.py .vmec852 e).2.m.evals ∧
    actions (Demo.cpp e).2.log ≠ actions (Demo.py .vmec852 e).2.m.log ∧ (Demo.cpp e).2.damp ≠ (Demo.py .vmec852 e).2.damp :=
  ⟨Demo.short 40 fun n => if n = 12 then Control.Demo.bad else Demo.slowly n, by decide +kernel⟩

/-- **C39**, disagreement: a bad Jacobian while the slow-progress condition holds.  C++ replaces the reason and reduces the time step gently
without counting a bad Jacobian; Python reduces it by a tenth and counts one. -/
theorem C39_slow_jacobian : ∃ e : Env Int Int, e.lfreeb = false ∧ e.parvmec = false ∧ (Demo.py .vmec852 e).2.notes = [.slowJacobian] ∧
    (Demo.cpp e).2.ijacob = 0 ∧ (Demo.py .vmec852 e).2.ijacob = 1 ∧
    (Demo.cpp e).2.delt0r ≠ (Demo.py .vmec852 e).2.delt0r ∧ actions (Demo.cpp e).2.log ≠ actions (Demo.py .vmec852 e).2.m.log :=
  ⟨Demo.short 60 fun n => if n = 50 then Control.Demo.bad else if n = 0 then Control.Demo.res 1 else Control.Demo.res 2, by decide +kernel⟩

/-- **C39**, disagreement: in the `parvmec` style the Python loop does not look at a bad Jacobian after the first iteration.  It goes on with a time
step along the old force and, since the residuals are unchanged, even takes a checkpoint of the result; C++ rolls back. -/
theorem C39_parvmec_jacobian : ∃ e : Env Int Int, e.lfreeb = false ∧ e.parvmec = true ∧ (Demo.py .parvmec e).2.notes = [.ignoredJacobian] ∧
    (∃ later earlier, (Demo.py .parvmec e).2.m.log =
      later ++ [.save 13, .advance (9 / 10) 13 6, .result .badJacobian, .evaluate 12] ++ earlier) ∧
    ∃ later earlier, (Demo.cpp e).2.log =
      later ++ [.counter 1, .restore 12 0, .advance (9 / 10) 13 6, .result .badJacobian, .evaluate 12] ++ earlier :=
  ⟨{ Demo.short 6 (fun n => if n = 5 then Control.Demo.bad else Demo.slowly n) with parvmec := true }, rfl, rfl, by decide +kernel,
    ⟨[], (Demo.py .parvmec { Demo.short 6 (fun n => if n = 5 then Control.Demo.bad else Demo.slowly n) with parvmec := true }).2.m.log.drop 4,
      by decide +kernel⟩,
    ⟨[], (Demo.cpp { Demo.short 6 (fun n => if n = 5 then Control.Demo.bad else Demo.slowly n) with parvmec := true }).2.log.drop 5,
      by decide +kernel⟩⟩

/-- **C39**, disagreement: convergence at the first evaluation after the 75th bad Jacobian.  Python reports convergence, C++ goes through the counter
check and reports failure. -/
theorem C39_converged_at_75 : ∃ e : Env Int Int, e.lfreeb = false ∧ e.parvmec = false ∧ (Demo.py .vmec852 e).2.notes = [.converged 75] ∧
    pyVerdict (Demo.py .vmec852 e) = .converged ∧ cppVerdict (Demo.cpp e) = .failed ∧ (Demo.cpp e).2.status = .jacobian75 :=
  ⟨Control.Demo.env fun n => if n = 0 then Control.Demo.res 1 else if n < 76 then Control.Demo.bad else Control.Demo.res 0, by decide +kernel⟩

/-- **C39**, disagreement: huge initial forces lead to a new axis after a time step was done.  C++ keeps the velocity of that step for the new
geometry, Python starts from rest. -/
theorem C39_velocity_kept : ∃ e : Env Int Int, e.lfreeb = false ∧ e.parvmec = false ∧ (Demo.py .vmec852 e).2.notes = [.reguess 1] ∧
    (∃ later earlier, (Demo.cpp e).2.log = later ++ .advance (9 / 10) 101 2 :: earlier ∧ .reinit 100 ∈ earlier) ∧
    .advance (9 / 10) 101 1 ∈ (Demo.py .vmec852 e).2.m.log ∧ .advance (9 / 10) 101 2 ∉ (Demo.py .vmec852 e).2.m.log :=
  ⟨Demo.short 20 fun n => if n = 0 then Control.Demo.res 1000 else Demo.slowly n, rfl, rfl, by decide +kernel,
    ⟨(Demo.cpp (Demo.short 20 fun n => if n = 0 then Control.Demo.res 1000 else Demo.slowly n)).2.log.takeWhile fun ev => ev ≠ .advance (9 / 10) 101 2,
      ((Demo.cpp (Demo.short 20 fun n => if n = 0 then Control.Demo.res 1000 else Demo.slowly n)).2.log.dropWhile
        fun ev => ev ≠ .advance (9 / 10) 101 2).drop 1, by decide +kernel⟩, by decide +kernel⟩

/-- **C39**, disagreement: a preconditioned residual sum that is exactly zero once.  C++ writes a zero into the damping array and goes on; Python
leaves the array entry and divides by zero in the following iteration. -/
theorem C39_zero_residual : ∃ e : Env Int Int, e.lfreeb = false ∧ e.parvmec = false ∧ (Demo.py .vmec852 e).2.notes = [.logError, .zeroResidual] ∧
    (Demo.py .vmec852 e).1 = .raised none ∧ cppVerdict (Demo.cpp e) = .exhausted ∧
    ∃ d ∈ (Demo.cpp e).2.damp, dampCpp (fun _ => 1) 0 (fun _ _ _ => 2) d [1, 1, 1] = [1, 1, 0] ∧
      dampPy (fun _ => 1) (fun _ _ _ => 2) d [1, 1, 1] = [1, 1, 1] :=
  ⟨Demo.short 8 fun n => if n = 3 then { Demo.slowly n with fsqr1 := .fin 0, fsqz1 := .fin 0, fsql1 := .fin 0 } else Demo.slowly n, by decide +kernel⟩

/-- **C39**, disagreement: free boundary.  When the vacuum coupling is switched on, C++ rolls back before the time step and goes on; the Python loop
ignores the request of the model (`need_restart`), does the time step and then treats it as a bad Jacobian with reduction of the time step. -/
theorem C39_free_boundary : ∃ e : Env Int Int, e.lfreeb = true ∧ e.parvmec = false ∧ (Demo.py .vmec852 e).2.notes = [] ∧
    actions (Demo.cpp e).2.log ≠ actions (Demo.py .vmec852 e).2.m.log ∧ (Demo.cpp e).2.delt0r = 9 / 10 ∧ (Demo.py .vmec852 e).2.delt0r = 81 / 100 :=
  ⟨{ Demo.short 20 (fun _ => Control.Demo.res (1 / 10 ^ 4)) with lfreeb := true }, by decide +kernel⟩

end Verif.PyDriver
