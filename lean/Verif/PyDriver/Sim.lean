import Verif.PyDriver.Tail

/-!
# Simulation: one pass, one loop, all attempts
-/
namespace Verif.PyDriver
open Verif Verif.Control

variable {X V : Type}

/-- corresponding states at the head of the inner loops -/
structure Head (e : Env X V) (fi bad : Int) (s : St X V) (p : PSt X V) : Prop where
  rel : Rel e s p
  status : s.status = .normal
  liter : s.liter = true
  iter2 : s.iter2 = fi - bad
  one : 1 ≤ fi - bad
  flags : p.converged = false ∧ p.failed = false ∧ p.mustRetry = false ∧ p.pending = false ∧ p.lreset = false
  ij : 0 ≤ p.ijacob

/-- the C++ run reached the contents of the Python object and did nothing but a tail after that -/
def Close (s : St X V) (m : St X V) : Prop := ∃ s0, Obj s0 m ∧ TailOf s0 s

/-- both drivers want another attempt -/
structure Retry (e : Env X V) (s : St X V) (p : PSt X V) (axis : Bool) : Prop where
  rel : Rel e s p
  liter : s.liter = true
  restart : s.restart = if axis then .badJacobian else .noRestart
  lreset : axis = true → s.lreset = true ∧ s.v = e.zeroV
  status : axis = false → s.status = .normal
  iter2 : s.iter2 = p.iter2
  one : 1 ≤ p.iter2
  flags : p.converged = false ∧ p.failed = false ∧ p.mustRetry = true ∧ p.pending = true ∧ p.lreset = axis
  ij : 1 ≤ p.ijacob

/-- results of one pass -/
inductive PassOut (e : Env X V) (fi j : Int) : Step X V → PStep X V → Prop
  | next (s' p' b) (h : Head e (fi + 1) b s' p') (hi : j ≤ p'.ijacob) : PassOut e fi j (.next s' b) (.next p' b)
  | converged (c s' p') (hc : (∃ b, c = .next s' b) ∨ c = .stop .mustRetry s') (hl : s'.liter = false) (hs : s'.status = .success)
      (hp : p'.converged = true) (hq : Close s' p'.m) (hI : s'.interrupted = false) : PassOut e fi j c (.stop p')
  | failed (c s' p') (hc : (∃ b, c = .next s' b ∧ s'.liter = false ∧ s'.status = .jacobian75) ∨ c = .stop (.error false) s' ∨
      (c = .stop .normal s' ∧ s'.status = .badJacobian))
      (hp : p'.failed = true ∧ p'.converged = false) (hq : Close s' p'.m) (hI : s'.interrupted = false) : PassOut e fi j c (.stop p')
  | raised (s' p' r) (hq : Close s' p'.m) (hI : s'.interrupted = false) : PassOut e fi j (.stop (.error r) s') (.raised p' (some r))
  | retry (s' p' axis) (h : Retry e s' p' axis) (ha : axis = true → j = 0) : PassOut e fi j (.stop .mustRetry s') (.stop p')

/-- notes of the state a pass ends in -/
def PStep.notes : PStep X V → List (Note V)
  | .next p _ => p.notes
  | .stop p => p.notes
  | .raised p _ => p.notes
  | .ub => []

theorem Rel.eval {e : Env X V} {s s' m' : St X V} {p : PSt X V} (h : Rel e s p) (ho : Obj s' m') (hs : Same s s') (hp : Pos s') (i : Int) :
    Rel e s' { p with m := m', iter2 := i } := by
  obtain ⟨a, b1, b2, b3, b4, b5, b6, b7, b8, b9, b10, b11⟩ := h
  obtain ⟨c1, c2, c3, c4, c5, c6, c7, c8, c9, c10, c11, c12⟩ := hs
  refine ⟨ho, c1.trans b1, c2.trans b2, fun h => c3.trans (b3 h), c4.trans b4, c5.trans b5, c6.trans b6, c12.trans b7, hp, ?_, ?_, c11.trans b11⟩
  · rw [c2, c3]; exact b9
  · rw [c6]; exact b10

theorem Rel.step {e : Env X V} {s : St X V} {p : PSt X V} (h : Rel e s p) (hi : s.iter2 = p.iter2) :
    Rel e (Control.timeStep e s.delt0r s) (timeStep e p) := by
  obtain ⟨⟨a1, a2, a3, a4, a5, a6, a7, a8, a9, a10, a11⟩, b1, b2, b3, b4, b5, b6, b7, b8, b9, b10, b11⟩ := h
  have hd : (⟨s.iter1, s.iter2, s.delt0r, s.fsq, D.add (D.add s.fsqr1 s.fsqz1) s.fsql1⟩ : Damp) =
      ⟨p.iter1, p.iter2, p.delt0r, p.fsqPrev, fsq1 p.m⟩ := by
    unfold PyDriver.fsq1
    rw [a7, a8, a9, b1, b4, b6, hi]
  have hr : e.adv s.evals (⟨s.iter1, s.iter2, s.delt0r, s.fsq, D.add (D.add s.fsqr1 s.fsqz1) s.fsql1⟩ :: s.damp) s.delt0r s.x s.v =
      e.adv p.m.evals (⟨p.iter1, p.iter2, p.delt0r, p.fsqPrev, fsq1 p.m⟩ :: p.damp) p.delt0r p.m.x p.m.v := by
    rw [hd, a1, a2, a10, b4, b7]
  refine ⟨⟨congrArg Prod.fst hr, congrArg Prod.snd hr, a3, a4, a5, a6, a7, a8, a9, a10, ?_⟩, ?_, b2, b3, b4, b5, b6, ?_, b8, b9, b10, b11⟩
  · have hev := congrArg₂ push (_root_.congr (congrArg₂ Ev.advance b4 (congrArg Prod.fst hr)) (congrArg Prod.snd hr)) a11
    exact hev
  · show D.add (D.add s.fsqr1 s.fsqz1) s.fsql1 = fsq1 p.m
    unfold PyDriver.fsq1; rw [a7, a8, a9]
  · show _ :: s.damp = _ :: p.damp
    rw [b7, hd]

/-- residuals below a small tolerance are not huge -/
theorem below_not_huge {e : Env X V} {q : ℚ} (hq : e.ftol = .fin q) (h33 : q ≤ 33) {m : St X V} (hb : belowTolerance e m = true) :
    D.lt (.fin 100) (fsq0 m) = false := by
  unfold belowTolerance at hb
  rw [hq] at hb
  unfold fsq0
  generalize m.fsqr = a at *
  generalize m.fsqz = b at *
  generalize m.fsql = c at *
  cases a <;> cases b <;> cases c <;> simp_all [D.le, D.lt, D.add]
  linarith

/-- a state with one more event that is no action -/
theorem Obj.silent {s m : St X V} (h : Obj s m) {s' : St X V} (hx : s' = { s with
    iter1 := s'.iter1, iter2 := s'.iter2, restart := s'.restart, status := s'.status, liter := s'.liter, lreset := s'.lreset, ijacob := s'.ijacob,
    log := s'.log }) (hl : actions s'.log = actions s.log) : Obj s' m := by
  obtain ⟨a1, a2, a3, a4, a5, a6, a7, a8, a9, a10, a11⟩ := h
  rw [hx]
  exact ⟨a1, a2, a3, a4, a5, a6, a7, a8, a9, a10, hl.trans a11⟩

/-- both drivers ask for a new axis -/
theorem axis_retry {e : Env X V} {s : St X V} {p : PSt X V} (h : Rel e s p) (hl : s.liter = true) (hi : s.iter2 = p.iter2) (h1 : 1 ≤ p.iter2)
    (hf : p.converged = false ∧ p.failed = false ∧ p.mustRetry = false ∧ p.pending = false ∧ p.lreset = false)
    (hv : p.m.v = e.zeroV) (n : Note V) : Retry e (axisRetry s) (askReguess (p.note n)) true := by
  have hv' := h.obj.v.trans hv
  obtain ⟨⟨a1, a2, a3, a4, a5, a6, a7, a8, a9, a10, a11⟩, b1, b2, b3, b4, b5, b6, b7, b8, b9, b10, b11⟩ := h
  refine ⟨⟨⟨a1, a2, a3, a4, a5, a6, a7, a8, a9, a10, ?_⟩, b1, b2, b3, b4, rfl, b6, b7, b8, b9, b10, b11⟩, hl, rfl, fun _ => ⟨rfl, hv'⟩, ?_, hi, h1,
    ⟨hf.1, hf.2.1, rfl, rfl, rfl⟩, ?_⟩
  · simp only [axisRetry, askReguess, PSt.note, St.emit, actions_cons, a11]
    rfl
  · intro h; cases h
  · show (1 : Int) ≤ 1; omega

/-- both drivers reset the time step -/
theorem step_reset {e : Env X V} {s : St X V} {p : PSt X V} (h : Rel e s p) (hl : s.liter = true) (hs : s.status = .normal)
    (hi : s.iter2 = p.iter2) (h1 : 1 ≤ p.iter2)
    (hf : p.converged = false ∧ p.failed = false ∧ p.mustRetry = false ∧ p.pending = false ∧ p.lreset = false)
    (hj : 0 ≤ p.ijacob) : Retry e (stepReset e s) (escalate e p) false := by
  have e1 : restartIteration e { s with restart := .badJacobian } = { rollbackJacobian e { s with restart := .badJacobian } with
      delt0r := (rollbackJacobian e { s with restart := .badJacobian }).delt0r * (9 / 10) } := rfl
  obtain ⟨⟨a1, a2, a3, a4, a5, a6, a7, a8, a9, a10, a11⟩, b1, b2, b3, b4, b5, b6, b7, b8, b9, b10, b11⟩ := h
  unfold stepReset
  rw [e1]
  refine ⟨⟨⟨a3, rfl, a3, a4, a5, a6, a7, a8, a9, a10, ?_⟩, b1, b2, b3, ?_, ?_, hi, b7, b8, b9, ?_, b11⟩, hl, rfl, fun h => ?_, fun _ => hs, hi, h1,
    ⟨hf.1, hf.2.1, rfl, rfl, hf.2.2.2.2⟩, ?_⟩
  · simp only [rollbackJacobian, escalate, restoreBackup, St.emit, actions_cons, a3, a11]
    rfl
  · show resetScale (s.ijacob + 1) * e.delt = (if p.ijacob + 1 < 50 then (98 / 100 : ℚ) else 96 / 100) * e.delt
    unfold resetScale; rw [b5]
  · show s.ijacob + 1 = p.ijacob + 1
    rw [b5]
  · show 1 ≤ s.iter2
    rw [hi]; exact h1
  · cases h
  · show 1 ≤ p.ijacob + 1; omega

theorem note_mem_left {zeroV : V} {n : Note V} {l : List (Note V)} (h : ∀ k ∈ n :: l, harmless zeroV k) : harmless zeroV n := h n (by simp)

theorem jacobianNotes_eq {zeroV : V} {style : Style} {p : PSt X V} (h : ∀ n ∈ (jacobianNotes style p).notes, harmless zeroV n) :
    jacobianNotes style p = p := by
  unfold jacobianNotes at h ⊢
  dsimp only at h ⊢
  split
  · rename_i c1
    rw [if_pos c1] at h
    split
    · rename_i c2
      rw [if_pos c2] at h
      split
      · rename_i c3
        rw [if_pos c3] at h
        exact (note_mem_left h).elim
      · rename_i c3
        rw [if_neg c3] at h
        split
        · rfl
        · rename_i c4
          rw [if_neg c4] at h
          split
          · rename_i c5
            rw [if_pos c5] at h
            exact (note_mem_left h).elim
          · rfl
    · rename_i c2
      rw [if_neg c2] at h
      exact (note_mem_left h).elim
  · rfl

/-- the control blocks leave the notes alone -/
theorem control_notes (e : Env X V) (style : Style) (p : PSt X V) (bad : Int) : (control e style p bad).1.notes = p.notes := by
  have hs : (seed p).notes = p.notes := by unfold seed; split <;> rfl
  unfold PyDriver.control
  split
  · exact hs
  · cases style
    · show (control852 e p bad).1.notes = _
      unfold control852
      dsimp only
      repeat' split
      all_goals exact hs
    · show (controlParvmec e p bad).1.notes = _
      unfold controlParvmec
      dsimp only
      repeat' split
      all_goals exact hs
    · show (controlRobust e p bad).1.notes = _
      unfold controlRobust
      dsimp only
      repeat' split
      all_goals exact hs

/-- the C++ pass after `Evolve` (`vmec.cc:945-1233`) -/
def afterEvolve (e : Env X V) (fi bad : Int) (s : St X V) : Step X V :=
  if s.ijacob = 0 ∧ (s.status = .badJacobian ∨ s.restart = .hugeInitialForces) ∧ e.ns ≥ 3 then .stop .mustRetry (axisRetry s)
  else if s.status ≠ .normal ∧ s.status ≠ .success then if e.keepGoing then .stop .normal s else .stop (.error false) s
  else if s.ijacob = 25 ∨ s.ijacob = 50 then .stop .mustRetry (stepReset e s)
  else endOfIteration e fi bad s

theorem giveUpCheck_no {s : St X V} (h : ¬ s.ijacob ≥ 75) : giveUpCheck s = s := by unfold giveUpCheck; rw [if_neg h]

/-- the pass after a time step -/
theorem decide_rel {e : Env X V} (hI : ∀ n, e.interrupt n = false) {s : St X V} {p : PSt X V} (h : Rel e s p) (hf : s.fsq = fsq1 s)
    (hr : s.restart = p.m.restart) (hn : s.restart ≠ .badProgress) {fi bad : Int} (hi : p.iter2 = fi - bad) (h2 : s.iter2 = fi - bad)
    (h1 : 1 ≤ fi - bad) (hh : s.restart = .hugeInitialForces → fi - bad = 1) (hs : s.status = .normal) (hl : s.liter = true)
    (hfl : p.converged = false ∧ p.failed = false ∧ p.mustRetry = false ∧ p.pending = false ∧ p.lreset = false) (hj : 0 ≤ p.ijacob)
    (hN : ∀ n ∈ (decide e (styleOf e) bad false p).notes, harmless e.zeroV n) :
    PassOut e fi p.ijacob (afterEvolve e fi bad s) (decide e (styleOf e) bad false p) := by
  unfold afterEvolve
  unfold PyDriver.decide at hN ⊢
  rw [hs, h.ijacob, hr]
  have r1 : ∀ a : Prop, (VmecStatus.normal = VmecStatus.badJacobian ∨ a) ↔ a := fun a => by simp
  have r2 : ∀ a : Prop, (false = true ∨ a) ↔ a := fun a => by simp
  simp only [r1, r2] at hN ⊢
  by_cases c1 : p.ijacob = 0 ∧ p.m.restart = .hugeInitialForces ∧ e.ns ≥ 3
  · rw [if_pos c1] at hN
    rw [if_pos c1, if_pos c1]
    exact .retry _ _ true (axis_retry h hl (h2.trans hi.symm) (by omega) hfl (note_mem_left hN) _) fun _ => c1.1
  have n1 : ¬ (VmecStatus.normal ≠ .normal ∧ VmecStatus.normal ≠ .success) := fun h => h.1 rfl
  have n2 : ¬ (false = true) := by simp
  rw [if_neg c1, if_neg n2] at hN
  rw [if_neg c1, if_neg c1, if_neg n1, if_neg n2]
  by_cases c2 : p.ijacob = 25 ∨ p.ijacob = 50
  · rw [if_pos c2, if_pos c2]
    exact .retry _ _ false (step_reset h hl hs (h2.trans hi.symm) (by omega) hfl hj) (fun h => by cases h)
  rw [if_neg c2] at hN
  rw [if_neg c2, if_neg c2]
  by_cases c3 : p.ijacob ≥ 75
  · rw [if_pos c3]
    obtain ⟨t, b, et, ht, st, lt⟩ := endOfIteration_tail hI fi bad s
    rw [et]
    have c3' : s.ijacob ≥ 75 := by rw [h.ijacob]; exact c3
    refine .failed _ t _ (Or.inl ⟨b, rfl, ?_, ?_⟩) ⟨rfl, hfl.1⟩ ⟨s, h.obj, ht⟩ (ht.intr.trans h.intr)
    · rw [lt]; unfold giveUpCheck; rw [if_pos c3']; rfl
    · rw [st]; unfold giveUpCheck; rw [if_pos c3']; rfl
  rw [if_neg c3] at hN
  rw [if_neg c3]
  have hN' : ∀ n ∈ (jacobianNotes (styleOf e) p).notes, harmless e.zeroV n := by
    intro n hn
    apply hN
    show n ∈ (control e (styleOf e) (jacobianNotes (styleOf e) p) bad).1.notes
    rw [control_notes]; exact hn
  have hJ := jacobianNotes_eq hN'
  have hc := control_rel (bad := bad) hI h hf hr hn hi h1 hh hJ
  rw [hJ]
  have c3' : ¬ s.ijacob ≥ 75 := by rw [h.ijacob]; exact c3
  obtain ⟨t, b, et, ht, st, lt⟩ := endOfIteration_tail hI fi bad s
  rw [giveUpCheck_no c3'] at st lt
  have et' := et
  unfold endOfIteration at et'
  dsimp only at et'
  rw [giveUpCheck_no c3'] at et'
  injection et' with e3 e4
  rw [et]
  have hb : b = (control e (styleOf e) p bad).2 := e4.symm.trans hc.cnt
  have hle := hc.le
  rw [e4] at hle
  show PassOut e fi p.ijacob (Step.next t b) (PStep.next (control e (styleOf e) p bad).1 (control e (styleOf e) p bad).2)
  rw [← hb]
  have hrel : Rel e t (control e (styleOf e) p bad).1 := by rw [← e3]; exact vacuumActivate_rel hc.rel _
  have hij : p.ijacob ≤ (control e (styleOf e) p bad).1.ijacob := by
    rw [← hrel.ijacob, ← h.ijacob]; exact ht.ijacob
  have hfl' := hc.flags
  refine .next _ _ _ ⟨hrel, st.trans hs, lt.trans hl, ?_, by omega, ?_, by omega⟩ hij
  · rw [← e3]
    show (fi - (act e (fi - bad) bad _).2) + 1 = _
    rw [e4]; omega
  · exact ⟨hfl'.1.trans hfl.1, hfl'.2.1.trans hfl.2.1, hfl'.2.2.1.trans hfl.2.2.1, hfl'.2.2.2.1.trans hfl.2.2.2.1, hfl'.2.2.2.2.trans hfl.2.2.2.2⟩

theorem iterate_eq (e : Env X V) (fi bad : Int) (s : St X V) : Control.iterate e fi bad s =
    match evolve e s with
    | .ub => .stop .ub s
    | .err s r => .stop (.error r) s
    | .ok s _ => afterEvolve e fi bad s := rfl

/-- hypotheses on the setting under which the drivers are compared -/
structure Setting (e : Env X V) : Prop where
  fixedBoundary : e.lfreeb = false
  noInterrupt : ∀ n, e.interrupt n = false
  pos : PosEnv e
  ftol : ∃ q : ℚ, e.ftol = .fin q ∧ q ≤ 33

theorem pass_rel {e : Env X V} (E : Setting e) {fi bad : Int} {s : St X V} {p : PSt X V} (h : Head e fi bad s p)
    (hN : ∀ n ∈ (iterate e (styleOf e) fi bad p).notes, harmless e.zeroV n) :
    PassOut e fi p.ijacob (Control.iterate e fi bad s) (iterate e (styleOf e) fi bad p) := by
  have hI := E.noInterrupt
  rw [iterate_eq]
  unfold evolve updateForwardModel
  unfold PyDriver.iterate evaluate at hN ⊢
  dsimp only at hN ⊢
  have ho : Obj ({ s with restart := .noRestart } : St X V) { p.m with restart := .noRestart, iter1 := p.iter1, iter2 := fi - bad } := by
    obtain ⟨a1, a2, a3, a4, a5, a6, a7, a8, a9, a10, a11⟩ := h.rel.obj
    exact ⟨a1, a2, a3, a4, a5, a6, a7, a8, a9, a10, a11⟩
  have hU := update_rel E.fixedBoundary E.pos ho rfl rfl h.rel.iter1 h.iter2
  generalize update e ({ s with restart := .noRestart } : St X V) = u at *
  generalize update e ({ p.m with restart := .noRestart, iter1 := p.iter1, iter2 := fi - bad } : St X V) = w at *
  cases hU with
  | err s' m' r ho' hs => exact .raised _ _ _ ⟨s', ho', .refl _⟩ (hs.interrupted.trans h.rel.intr)
  | ok s' m' ho' hr hs hm hp hh hn =>
    dsimp only at hN ⊢
    have hR : Rel e s' { p with m := m', iter2 := fi - bad } := h.rel.eval ho' ⟨hs.1, hs.2, hs.3, hs.4, hs.5, hs.6, hs.7, hs.8, hs.9, hs.10, hs.11, hs.12⟩ (hp h.rel.pos) _
    have hi2 : s'.iter2 = fi - bad := hs.iter2.trans h.iter2
    have hst : s'.status = .normal := hs.status.trans h.status
    have hli : s'.liter = true := hs.liter.trans h.liter
    have hij : s'.ijacob = p.ijacob := hR.ijacob
    have hin : s'.interrupted = false := hs.interrupted.trans h.rel.intr
    have hSB : ((s'.iter2 = 1 ∧ s'.restart = .badJacobian) ∨
      ¬ (s'.fsqr.isFinite = true ∧ s'.fsqz.isFinite = true ∧ s'.fsql.isFinite = true)) ↔ statusBad (fi - bad) m' = true := by
      unfold statusBad
      rw [hi2, hr, ho'.fsqr, ho'.fsqz, ho'.fsql]
      exact decide_eq_true_iff.symm
    have hBT : (s'.fsqr.le e.ftol = true ∧ s'.fsqz.le e.ftol = true ∧ s'.fsql.le e.ftol = true) ↔ belowTolerance e m' = true := by
      unfold belowTolerance
      rw [ho'.fsqr, ho'.fsqz, ho'.fsql]
      simp
    unfold convergence
    by_cases hsb : statusBad (fi - bad) m' = true
    · -- bad Jacobian in the first iteration or residuals that are not finite
      rw [if_pos (hSB.2 hsb), if_pos (by simp)]
      rw [if_neg (by rw [hsb]; simp), if_pos hsb, hsb] at hN ⊢
      unfold PyDriver.decide at hN ⊢
      unfold afterEvolve
      dsimp only at hN ⊢
      by_cases c1 : p.ijacob = 0 ∧ (true = true ∨ m'.restart = .hugeInitialForces) ∧ e.ns ≥ 3
      · rw [if_pos c1] at hN
        rw [if_pos c1, if_pos ⟨hij.trans c1.1, Or.inl rfl, c1.2.2⟩]
        refine .retry _ _ true (axis_retry (s := { s' with status := .badJacobian }) (p := { p with m := m', iter2 := fi - bad }) (hR.congr rfl rfl rfl) hli hi2 h.one h.flags (note_mem_left hN) _)
          fun _ => c1.1
      · rw [if_neg c1, if_pos rfl]
        have c1' : ¬ (s'.ijacob = 0 ∧ (VmecStatus.badJacobian = .badJacobian ∨ s'.restart = .hugeInitialForces) ∧ e.ns ≥ 3) :=
          fun q => c1 ⟨hij.symm.trans q.1, Or.inl rfl, q.2.2⟩
        rw [if_neg c1', if_pos ⟨by simp, by simp⟩]
        have hcl : Close ({ s' with status := .badJacobian } : St X V) m' := ⟨_, ho', .same rfl rfl rfl rfl rfl⟩
        split
        · exact .failed _ _ _ (Or.inr (Or.inr ⟨rfl, rfl⟩)) ⟨rfl, h.flags.1⟩ hcl hin
        · exact .failed _ _ _ (Or.inr (Or.inl rfl)) ⟨rfl, h.flags.1⟩ hcl hin
    · rw [if_neg (fun q => hsb (hSB.1 q))]
      by_cases hbt : belowTolerance e m' = true
      · -- converged
        rw [if_pos (hBT.2 hbt), if_pos (Or.inr (by simp))]
        rw [if_pos ⟨hsb, hbt⟩] at hN ⊢
        have h75 : p.ijacob < 75 := note_mem_left hN
        obtain ⟨q, hq, h33⟩ := E.ftol
        have hnh : s'.restart ≠ .hugeInitialForces := by
          intro q
          have := (hh q).2
          rw [ho'.fsq0, below_not_huge hq h33 hbt] at this; cases this
        unfold afterEvolve
        dsimp only
        rw [if_neg (by simp [hnh]), if_neg (by simp)]
        have hcl : TailOf s' ({ s' with liter := false, status := .success } : St X V) := .same rfl rfl rfl rfl rfl
        split
        · refine .converged _ (stepReset e { s' with liter := false, status := .success }) _ (Or.inr rfl) rfl rfl rfl ⟨s', ho', hcl.trans (stepReset_tail e _)⟩ ?_
          exact (stepReset_tail e _).intr.trans hin
        · obtain ⟨t, b, et, ht, st, lt⟩ := endOfIteration_tail hI fi bad { s' with liter := false, status := .success }
          have c3 : ¬ ({ s' with liter := false, status := .success } : St X V).ijacob ≥ 75 := by
            show ¬ s'.ijacob ≥ 75
            rw [hij]; omega
          rw [giveUpCheck_no c3] at st lt
          rw [et]
          exact .converged _ t _ (Or.inl ⟨b, rfl⟩) lt st rfl ⟨s', ho', hcl.trans ht⟩ (ht.intr.trans hin)
      · rw [if_neg (fun q => hbt (hBT.1 q)), if_neg (by simp [hst, hli])]
        rw [if_neg (by simp [hbt]), if_neg hsb] at hN ⊢
        by_cases hlog : logRaises p.iter1 (fi - bad) (fsq1 m') p.fsqPrev = true
        · rw [if_pos hlog] at hN
          exact (note_mem_left hN).elim
        · rw [if_neg hlog] at hN ⊢
          have hsb' : statusBad (fi - bad) m' = false := by simpa using hsb
          rw [hsb'] at hN ⊢
          have hd : s.delt0r = s'.delt0r := hs.delt0r.symm
          rw [hd]
          have hT := hR.step hi2
          refine decide_rel hI hT rfl hr hn rfl hi2 h.one (fun q => ?_) hst hli h.flags h.ij hN
          exact h.iter2.symm.trans (hh q).1

/-! ## notes only accumulate -/

theorem jacobianNotes_mono (style : Style) (p : PSt X V) : p.notes <:+ (jacobianNotes style p).notes := by
  have h : ∀ n, p.notes <:+ (p.note n).notes := fun n => ⟨[n], rfl⟩
  unfold jacobianNotes
  dsimp only
  split
  · split
    · split
      · exact h _
      · split
        · exact ⟨[], rfl⟩
        · split
          · exact h _
          · exact ⟨[], rfl⟩
    · exact h _
  · exact ⟨[], rfl⟩

theorem decide_mono (e : Env X V) (style : Style) (bad : Int) (b : Bool) (p : PSt X V) : p.notes <:+ (decide e style bad b p).notes := by
  unfold PyDriver.decide
  split
  · exact ⟨[.reguess p.m.v], rfl⟩
  · split
    · exact ⟨[], rfl⟩
    · split
      · exact ⟨[], rfl⟩
      · split
        · exact ⟨[], rfl⟩
        · show _ <:+ (control e style (jacobianNotes style p) bad).1.notes
          rw [control_notes]
          exact jacobianNotes_mono style p

theorem iterate_mono (e : Env X V) (style : Style) (fi bad : Int) (p : PSt X V) :
    iterate e style fi bad p = .ub ∨ p.notes <:+ (iterate e style fi bad p).notes := by
  unfold PyDriver.iterate
  dsimp only
  generalize evaluate e (fi - bad) p = u
  cases u with
  | ub => exact Or.inl rfl
  | err m r => exact Or.inr ⟨[], rfl⟩
  | ok m n =>
    right
    dsimp only
    split
    · exact ⟨[.converged p.ijacob], rfl⟩
    · split
      · exact decide_mono e style bad _ { p with m := m, iter2 := fi - bad }
      · split
        · exact ⟨[.logError], rfl⟩
        · refine List.IsSuffix.trans ?_ (decide_mono e style bad _ _)
          unfold PyDriver.timeStep
          dsimp only
          split
          · exact ⟨[.zeroResidual], rfl⟩
          · exact ⟨[], rfl⟩

theorem loop_mono (e : Env X V) (style : Style) (n : Nat) (fi bad : Int) (p : PSt X V) :
    p.notes <:+ (loop e style n fi bad p).2.notes := by
  induction n generalizing fi bad p with
  | zero => exact ⟨[], rfl⟩
  | succ n ih =>
    have h := iterate_mono e style fi bad p
    unfold PyDriver.loop
    generalize iterate e style fi bad p = u at *
    cases u with
    | next p' b =>
      rcases h with h | h
      · cases h
      · exact h.trans (ih _ _ _)
    | stop p' =>
      rcases h with h | h
      · cases h
      · exact h
    | raised p' r =>
      rcases h with h | h
      · cases h
      · exact h
    | ub => exact ⟨[], rfl⟩

theorem enter_notes (e : Env X V) (nv : Int) (p : PSt X V) : (enter e nv p).notes = p.notes := by
  unfold enter
  dsimp only
  repeat' split
  all_goals rfl

theorem attempts_mono (e : Env X V) (style : Style) (nv : Int) (n : Nat) (p : PSt X V) :
    p.notes <:+ (attempts e style nv n p).2.notes := by
  induction n generalizing p with
  | zero => exact ⟨[], rfl⟩
  | succ n ih =>
    unfold PyDriver.attempts
    split
    · have h := loop_mono e style (e.niter + 1 - (enter e nv p).iter2).toNat (enter e nv p).iter2 0 (enter e nv p)
      rw [enter_notes] at h
      dsimp only
      split
      · exact h.trans (ih _)
      · exact h
    · exact ⟨[], rfl⟩

/-! ## the inner loop -/

/-- results of the inner loops -/
inductive LoopOut (e : Env X V) (j : Int) : LoopRet × St X V → End × PSt X V → Prop
  | exhausted (s' p') (h : Rel e s' p') (hs : s'.status = .normal)
      (hf : p'.converged = false ∧ p'.failed = false ∧ p'.mustRetry = false) : LoopOut e j (.normal, s') (.returned, p')
  | converged (r s' p') (hr : r = .normal ∨ r = .mustRetry) (hl : s'.liter = false) (hs : s'.status = .success)
      (hp : p'.converged = true) (hq : Close s' p'.m) (hI : s'.interrupted = false) : LoopOut e j (r, s') (.returned, p')
  | failed (r s' p') (hr : r = .error false ∨ (r = .normal ∧ (s'.status = .badJacobian ∨ s'.status = .jacobian75)))
      (hp : p'.failed = true ∧ p'.converged = false) (hq : Close s' p'.m) (hI : s'.interrupted = false) : LoopOut e j (r, s') (.returned, p')
  | raised (s' p' r) (hq : Close s' p'.m) (hI : s'.interrupted = false) : LoopOut e j (.error r, s') (.raised (some r), p')
  | retry (s' p' axis) (h : Retry e s' p' axis) (ha : axis = true → j = 0) : LoopOut e j (.mustRetry, s') (.returned, p')

theorem loop_stopped (e : Env X V) (n : Nat) (fi bad : Int) {s : St X V} (h : s.liter = false) : Control.loop e n fi bad s = (.normal, s) := by
  cases n with
  | zero => rfl
  | succ n => unfold Control.loop; rw [if_neg (by simp [h])]

theorem loop_rel {e : Env X V} (E : Setting e) (n : Nat) {fi bad : Int} {s : St X V} {p : PSt X V} {j : Int} (hj : 0 ≤ j) (h : Head e fi bad s p)
    (hij : j ≤ p.ijacob) (hN : ∀ k ∈ (loop e (styleOf e) n fi bad p).2.notes, harmless e.zeroV k) :
    LoopOut e j (Control.loop e n fi bad s) (loop e (styleOf e) n fi bad p) := by
  induction n generalizing fi bad s p with
  | zero => exact .exhausted _ _ h.rel h.status ⟨h.flags.1, h.flags.2.1, h.flags.2.2.1⟩
  | succ n ih =>
    unfold Control.loop
    rw [if_pos h.liter]
    unfold PyDriver.loop at hN ⊢
    have hP := pass_rel E h
    generalize Control.iterate e fi bad s = c at *
    generalize iterate e (styleOf e) fi bad p = w at *
    have hw : ∀ k ∈ w.notes, harmless e.zeroV k := by
      cases w with
      | next p' b => exact fun k hk => hN k ((loop_mono e (styleOf e) n (fi + 1) b p').mem hk)
      | stop p' => exact hN
      | raised p' r => exact hN
      | ub => intro k hk; cases hk
    cases hP hw with
    | next s' p' b h' hi' => exact ih h' (le_trans hij hi') hN
    | converged c s' p' hc hl hs hp hq hI' =>
      rcases hc with ⟨b, rfl⟩ | rfl
      · dsimp only
        rw [loop_stopped e n _ _ hl]
        exact .converged _ _ _ (Or.inl rfl) hl hs hp hq hI'
      · exact .converged _ _ _ (Or.inr rfl) hl hs hp hq hI'
    | failed c s' p' hc hp hq hI' =>
      rcases hc with ⟨b, rfl, hl, hs⟩ | rfl | ⟨rfl, hs⟩
      · dsimp only
        rw [loop_stopped e n _ _ hl]
        exact .failed _ _ _ (Or.inr ⟨rfl, Or.inr hs⟩) hp hq hI'
      · exact .failed _ _ _ (Or.inl rfl) hp hq hI'
      · exact .failed _ _ _ (Or.inr ⟨rfl, Or.inl hs⟩) hp hq hI'
    | raised s' p' r hq hI' => exact .raised _ _ _ hq hI'
    | retry s' p' axis hR ha => exact .retry _ _ axis hR (fun h => by have := ha h; have := h; omega)

/-! ## the outer loop -/

/-- final results -/
inductive Out (e : Env X V) : LoopRet × St X V → End × PSt X V → Prop
  | exhausted (r s' p') (hr : r = .normal ∨ r = .mustRetry) (h : Rel e s' p') (hs : s'.status = .normal)
      (hf : p'.converged = false ∧ p'.failed = false) : Out e (r, s') (.returned, p')
  | converged (r s' p') (hr : r = .normal ∨ r = .mustRetry) (hs : s'.status = .success)
      (hp : p'.converged = true) (hq : Close s' p'.m) (hI : s'.interrupted = false) : Out e (r, s') (.returned, p')
  | failed (r s' p') (hr : r = .error false ∨ (r = .normal ∧ (s'.status = .badJacobian ∨ s'.status = .jacobian75)))
      (hp : p'.failed = true ∧ p'.converged = false) (hq : Close s' p'.m) (hI : s'.interrupted = false) : Out e (r, s') (.returned, p')
  | raised (s' p' r) (hq : Close s' p'.m) (hI : s'.interrupted = false) : Out e (.error r, s') (.raised (some r), p')

theorem initializeRadial_keeps (e : Env X V) (nv : Int) (x : X) (m : St X V) : (initializeRadial e nv false true x m).fsqr = m.fsqr ∧
    (initializeRadial e nv false true x m).fsqz = m.fsqz ∧ (initializeRadial e nv false true x m).fsql = m.fsql ∧
    (initializeRadial e nv false true x m).fsqr1 = m.fsqr1 ∧ (initializeRadial e nv false true x m).fsqz1 = m.fsqz1 ∧
    (initializeRadial e nv false true x m).fsql1 = m.fsql1 ∧ (initializeRadial e nv false true x m).evals = m.evals := by
  have h : ¬ (e.lfreeb = true ∧ false = true ∧ m.vac = .active) := by simp
  unfold initializeRadial
  dsimp only
  simp only [if_neg h]
  exact ⟨rfl, rfl, rfl, rfl, rfl, rfl, rfl⟩

/-- the start of another attempt -/
theorem enter_rel {e : Env X V} {nv : Int} {s : St X V} {p : PSt X V} {axis : Bool} (h : Retry e s p axis) :
    Head e s.iter2 0 (enterLoop e { s with tries := s.tries + 1 }) (enter e nv p) ∧
      (enterLoop e { s with tries := s.tries + 1 }).iter2 = s.iter2 ∧ (enter e nv p).iter2 = s.iter2 ∧ (enter e nv p).ijacob = p.ijacob := by
  obtain ⟨f1, f2, f3, f4, f5⟩ := h.flags
  have h1 := h.one
  rw [← h.iter2] at h1
  have hij := h.ij
  cases axis with
  | false =>
    have hr := h.restart
    rw [if_neg (by simp)] at hr
    have e1 : enterLoop e { s with tries := s.tries + 1 } = { s with tries := s.tries + 1, liter := true, status := .normal } := by
      unfold enterLoop
      dsimp only
      rw [if_neg (by rw [hr]; simp)]
    have e2 : enter e nv p = { p with mustRetry := false, retries := p.retries + 1, pending := false, lreset := false } := by
      unfold enter
      dsimp only
      rw [if_pos f4, if_neg (by rw [f5]; simp)]
    rw [e1, e2]
    refine ⟨⟨h.rel.congr rfl rfl rfl, rfl, rfl, ?_, ?_, ⟨f1, f2, rfl, rfl, rfl⟩, ?_⟩, rfl, h.iter2.symm, rfl⟩
    · show s.iter2 = s.iter2 - 0; omega
    · omega
    · show 0 ≤ p.ijacob; omega
  | true =>
    have hr := h.restart
    rw [if_pos rfl] at hr
    obtain ⟨hl, hv⟩ := h.lreset rfl
    have e1 : enterLoop e { s with tries := s.tries + 1 } =
        { saveState (({ s with tries := s.tries + 1, x := e.guess s.evals, restart := .noRestart } : St X V).emit (fun s => .reinit s.x)) with
          liter := true, status := .normal } := by
      unfold enterLoop
      dsimp only
      rw [if_pos hr, if_pos hl]
    have e2 : enter e nv p = { saveBackup (reinitialize e nv { p with mustRetry := false, retries := p.retries + 1 }) with
        pending := false, lreset := false } := by
      unfold enter
      dsimp only
      rw [if_pos f4, if_pos f5]
    rw [e1, e2]
    obtain ⟨⟨a1, a2, a3, a4, a5, a6, a7, a8, a9, a10, a11⟩, b1, b2, b3, b4, b5, b6, b7, b8, b9, b10, b11⟩ := h.rel
    have hx : e.guess s.evals = e.guess p.m.evals := by rw [a10]
    obtain ⟨k1, k2, k3, k4, k5, k6, k7⟩ := initializeRadial_keeps e nv (e.guess p.m.evals) p.m
    have hmx : (initializeRadial e nv false true (e.guess p.m.evals) p.m).x = e.guess p.m.evals := rfl
    refine ⟨⟨⟨⟨hx, hv, hx, a4.trans k1.symm, a5.trans k2.symm, a6.trans k3.symm, a7.trans k4.symm, a8.trans k5.symm, a9.trans k6.symm, a10.trans k7.symm, ?_⟩, b1, b2, b3, b4, b5, b6, b7, b8, b9, b10, b11⟩, rfl, rfl, ?_, ?_,
      ⟨f1, f2, rfl, rfl, rfl⟩, ?_⟩, rfl, h.iter2.symm, rfl⟩
    · simp only [saveState, saveBackup, reinitialize, St.emit, actions_cons, hmx, hx, a11]
      rfl
    · show s.iter2 = s.iter2 - 0; omega
    · omega
    · show 0 ≤ p.ijacob; omega

theorem attempts_rel {e : Env X V} (E : Setting e) {nv : Int} (n : Nat) {s : St X V} {p : PSt X V} {axis : Bool} (h : Retry e s p axis)
    (hn : axis = true → 1 ≤ n) (hN : ∀ k ∈ (attempts e (styleOf e) nv n p).2.notes, harmless e.zeroV k) :
    Out e (Control.attempts e n .mustRetry s) (attempts e (styleOf e) nv n p) := by
  induction n generalizing s p axis with
  | zero =>
    cases axis with
    | true => have := hn rfl; omega
    | false => exact .exhausted _ _ _ (Or.inr rfl) h.rel (h.status rfl) ⟨h.flags.1, h.flags.2.1⟩
  | succ n ih =>
    obtain ⟨f1, f2, f3, f4, f5⟩ := h.flags
    have hij := h.ij
    obtain ⟨hH, i1, i2, i3⟩ := enter_rel (nv := nv) h
    unfold Control.attempts
    rw [if_pos ⟨rfl, h.liter⟩]
    unfold PyDriver.attempts at hN ⊢
    rw [if_pos (by simp [f1, f2, f3])] at hN ⊢
    unfold solveEquilibriumLoop
    dsimp only at hN ⊢
    rw [i1]
    rw [i2] at hN ⊢
    have hL := loop_rel (j := p.ijacob) E (e.niter + 1 - s.iter2).toNat (by omega) hH (le_of_eq i3.symm)
    generalize Control.loop e (e.niter + 1 - s.iter2).toNat s.iter2 0 (enterLoop e { s with tries := s.tries + 1 }) = c at *
    generalize loop e (styleOf e) (e.niter + 1 - s.iter2).toNat s.iter2 0 (enter e nv p) = w at *
    have hw : ∀ k ∈ w.2.notes, harmless e.zeroV k := by
      obtain ⟨w1, w2⟩ := w
      cases w1 with
      | returned => exact fun k hk => hN k ((attempts_mono e (styleOf e) nv n w2).mem hk)
      | raised r => exact hN
      | ub => exact hN
    have stopC : ∀ (r : LoopRet) (t : St X V), (r ≠ .mustRetry ∨ t.liter = false) → Control.attempts e n r t = (r, t) := by
      intro r t ht
      cases n with
      | zero => rfl
      | succ n =>
        unfold Control.attempts
        rw [if_neg]
        rintro ⟨a, b⟩
        rcases ht with ht | ht
        · exact ht a
        · rw [ht] at b; cases b
    have stopP : ∀ q : PSt X V, (q.mustRetry = false ∨ q.converged = true ∨ q.failed = true) → attempts e (styleOf e) nv n q = (.returned, q) := by
      intro q hq
      cases n with
      | zero => rfl
      | succ n =>
        unfold PyDriver.attempts
        rw [if_neg]
        rintro ⟨a, b, c⟩
        rcases hq with hq | hq | hq
        · rw [hq] at a; cases a
        · exact b hq
        · exact c hq
    cases hL hw with
    | exhausted s' p' hR hs hf =>
      dsimp only
      rw [stopC _ _ (Or.inl (by simp)), stopP _ (Or.inl hf.2.2)]
      exact .exhausted _ _ _ (Or.inl rfl) hR hs ⟨hf.1, hf.2.1⟩
    | converged r s' p' hr hl hs hp hq hI' =>
      dsimp only
      rw [stopC _ _ (Or.inr hl), stopP _ (Or.inr (Or.inl hp))]
      exact .converged _ _ _ hr hs hp hq hI'
    | failed r s' p' hr hp hq hI' =>
      dsimp only
      rw [stopC _ _ (Or.inl (by rcases hr with rfl | ⟨rfl, -⟩ <;> simp)), stopP _ (Or.inr (Or.inr hp.1))]
      exact .failed _ _ _ hr hp hq hI'
    | raised s' p' r hq hI' =>
      dsimp only
      rw [stopC _ _ (Or.inl (by simp))]
      exact .raised _ _ _ hq hI'
    | retry s' p' axis' hR ha =>
      exact ih hR (fun h => by have := ha h; omega) hN

/-- the first attempt -/
theorem solve_rel {e : Env X V} (E : Setting e) {nv : Int} (n : Nat) {s : St X V} {p : PSt X V} (h : Head e 1 0 { s with status := .normal } { p with mustRetry := false })
    (hl : s.liter = true) (hr : s.restart = .noRestart) (hp : p.mustRetry = true)
    (hn : 2 ≤ n) (hp2 : p.iter2 = 1) (hN : ∀ k ∈ (attempts e (styleOf e) nv n p).2.notes, harmless e.zeroV k) :
    Out e (Control.attempts e n .mustRetry s) (attempts e (styleOf e) nv n p) := by
  obtain ⟨n, rfl⟩ : ∃ m, n = m + 1 := ⟨n - 1, by omega⟩
  obtain ⟨f1, f2, f3, f4, f5⟩ := h.flags
  dsimp only at f1 f2 f4 f5
  have i1 : s.iter2 = 1 := by have := h.iter2; simpa using this
  have e1 : enterLoop e { s with tries := s.tries + 1 } = { s with tries := s.tries + 1, liter := true, status := .normal } := by
    unfold enterLoop
    dsimp only
    rw [if_neg (by rw [hr]; simp)]
  have e2 : enter e nv p = { p with mustRetry := false, retries := p.retries + 1 } := by
    unfold enter
    dsimp only
    rw [if_neg (by rw [f4]; simp)]
  have hH : Head e 1 0 (enterLoop e { s with tries := s.tries + 1 }) (enter e nv p) := by
    rw [e1, e2]
    obtain ⟨g1, g2, g3, g4, g5, g6, g7⟩ := h
    exact ⟨g1.congr rfl rfl rfl, rfl, rfl, g4, g5, ⟨f1, f2, rfl, f4, f5⟩, g7⟩
  have hij : 0 ≤ p.ijacob := h.ij
  unfold Control.attempts
  rw [if_pos ⟨rfl, hl⟩]
  unfold PyDriver.attempts at hN ⊢
  rw [if_pos (by simp [f1, f2, hp])] at hN ⊢
  unfold solveEquilibriumLoop
  dsimp only at hN ⊢
  have j1 : (enterLoop e { s with tries := s.tries + 1 }).iter2 = 1 := by rw [e1]; exact i1
  have j2 : (enter e nv p).iter2 = 1 := by rw [e2]; exact hp2
  rw [j1]
  rw [j2] at hN ⊢
  have hL := loop_rel (j := p.ijacob) E (e.niter + 1 - 1).toNat hij hH (by rw [e2])
  generalize Control.loop e (e.niter + 1 - 1).toNat 1 0 (enterLoop e { s with tries := s.tries + 1 }) = c at *
  generalize loop e (styleOf e) (e.niter + 1 - 1).toNat 1 0 (enter e nv p) = w at *
  have hw : ∀ k ∈ w.2.notes, harmless e.zeroV k := by
    obtain ⟨w1, w2⟩ := w
    cases w1 with
    | returned => exact fun k hk => hN k ((attempts_mono e (styleOf e) nv n w2).mem hk)
    | raised r => exact hN
    | ub => exact hN
  have stopC : ∀ (r : LoopRet) (t : St X V), (r ≠ .mustRetry ∨ t.liter = false) → Control.attempts e n r t = (r, t) := by
    intro r t ht
    cases n with
    | zero => rfl
    | succ n =>
      unfold Control.attempts
      rw [if_neg]
      rintro ⟨a, b⟩
      rcases ht with ht | ht
      · exact ht a
      · rw [ht] at b; cases b
  have stopP : ∀ q : PSt X V, (q.mustRetry = false ∨ q.converged = true ∨ q.failed = true) → attempts e (styleOf e) nv n q = (.returned, q) := by
    intro q hq
    cases n with
    | zero => rfl
    | succ n =>
      unfold PyDriver.attempts
      rw [if_neg]
      rintro ⟨a, b, c⟩
      rcases hq with hq | hq | hq
      · rw [hq] at a; cases a
      · exact b hq
      · exact c hq
  cases hL hw with
  | exhausted s' p' hR hs hf =>
    dsimp only
    rw [stopC _ _ (Or.inl (by simp)), stopP _ (Or.inl hf.2.2)]
    exact .exhausted _ _ _ (Or.inl rfl) hR hs ⟨hf.1, hf.2.1⟩
  | converged r s' p' hr hl hs hp hq hI' =>
    dsimp only
    rw [stopC _ _ (Or.inr hl), stopP _ (Or.inr (Or.inl hp))]
    exact .converged _ _ _ hr hs hp hq hI'
  | failed r s' p' hr hp hq hI' =>
    dsimp only
    rw [stopC _ _ (Or.inl (by rcases hr with rfl | ⟨rfl, -⟩ <;> simp)), stopP _ (Or.inr (Or.inr hp.1))]
    exact .failed _ _ _ hr hp hq hI'
  | raised s' p' r hq hI' =>
    dsimp only
    rw [stopC _ _ (Or.inl (by simp))]
    exact .raised _ _ _ hq hI'
  | retry s' p' axis' hR ha =>
    exact attempts_rel E n hR (fun _ => by omega) hN

end Verif.PyDriver
