import Verif.Control.Model
import Mathlib.Logic.Relation
import Mathlib.Tactic.Linarith
import Mathlib.Tactic.Ring

/-!
# The run as a sequence of guarded primitive steps

`Prim` lists the primitive actions of the model together with the conditions under which the code
takes them; every execution of the model is a sequence of them (`*_reach`).  Invariants are then
proved once per primitive.  This is a proof device only: no property is stated with it.
-/
namespace Verif.Control
open Verif

variable {X V : Type}

inductive Prim (e : Env X V) : St X V → St X V → Prop
  | clear (s) : Prim e s { s with restart := .noRestart }
  | begin_ (s) : Prim e s (beginUpdate e s)
  | bad (s) : Prim e s (evalBad s)
  | failed (s) : Prim e s (evalFailed s)
  | sched (s) (h1 : e.lfreeb = true) (h2 : s.iter2 > 1 ∨ s.vac = .initialized)
      (h3 : s.nvacskip ≠ 0) : Prim e s (vacuumSchedule s)
  | interval (s) : Prim e s (vacuumInterval s)
  | solved (s) (h : s.vac ≠ .off) : Prim e s (vacuumSolved s)
  | softFlag (s) (h : s.vac = .initialized) : Prim e s { s with restart := .badJacobian }
  | setRes (s) (n : Nat) : Prim e s (setResiduals (e.phys n) s)
  | huge (s) : Prim e s (hugeForces s)
  | rollJ (s) (q : ℚ) (hq : q = 1 ∨ q = 9 / 10) :
      Prim e s { rollbackJacobian e s with delt0r := s.delt0r * q }
  | rollP (s) (q : ℚ) (hq : q = 1 ∨ q = 103 / 100) :
      Prim e s { rollbackProgress e s with delt0r := s.delt0r / q }
  | save (s) : Prim e s (saveState s)
  | conv (s) : Prim e s (convergence e s)
  | step (s) (h1 : s.status = .normal) (h2 : s.liter = true)
      (hf : s.fsqr.isFinite = true ∧ s.fsqz.isFinite = true ∧ s.fsql.isFinite = true) :
      Prim e s (timeStep e s.delt0r s)
  | axis (s) (h : s.ijacob = 0) : Prim e s (axisRetry s)
  | reset (s) (h : s.ijacob = 25 ∨ s.ijacob = 50) : Prim e s (stepReset e s)
  | giveUp (s) : Prim e s (giveUpCheck s)
  | best (s) (k) : Prim e s (bestResiduals e k s)
  | flag (s) (r : RestartReason) : Prim e s { s with restart := r }
  | iter1 (s) (k : Int) (h : k = s.iter2) : Prim e s { s with iter1 := k }
  | iter2 (s) (k : Int) (h : k = s.iter2 + 1) : Prim e s { s with iter2 := k }
  | intr (s) :
      Prim e s ({ s with liter := false, interrupted := true }.emit (fun _ => .interrupt))
  | vacOn (s) : Prim e s (vacuumActivate s)
  | enter (s) (x : X) :
      Prim e s (saveState ({ s with x := x, restart := .noRestart }.emit (fun s => .reinit s.x)))
  | start (s) : Prim e s { s with liter := true, status := .normal }

/-- reachable by primitive steps -/
abbrev Reach (e : Env X V) : St X V → St X V → Prop := Relation.ReflTransGen (Prim e)

theorem Reach.inv {e : Env X V} {I : St X V → Prop} (hI : ∀ s s', Prim e s s' → I s → I s')
    {s s' : St X V} (h : Reach e s s') (hs : I s) : I s' := by
  induction h with
  | refl => exact hs
  | tail _ hp ih => exact hI _ _ hp ih

/-- reachable by primitive steps and retries -/
abbrev ReachT (e : Env X V) : St X V → St X V → Prop :=
  Relation.ReflTransGen (fun a b => Prim e a b ∨ b = { a with tries := a.tries + 1 })

theorem ReachT.inv {e : Env X V} {I : St X V → Prop} (hI : ∀ s s', Prim e s s' → I s → I s')
    (ht : ∀ s, I s → I { s with tries := s.tries + 1 })
    {s s' : St X V} (h : ReachT e s s') (hs : I s) : I s' := by
  induction h with
  | refl => exact hs
  | tail _ hp ih =>
    rcases hp with hp | rfl
    · exact hI _ _ hp ih
    · exact ht _ ih

theorem Reach.toT {e : Env X V} {s s' : St X V} (h : Reach e s s') : ReachT e s s' := by
  induction h with
  | refl => exact .refl
  | tail _ hp ih => exact ih.tail (Or.inl hp)

theorem ReachT.retry {e : Env X V} {s s' : St X V}
    (h : ReachT e { s with tries := s.tries + 1 } s') : ReachT e s s' :=
  Relation.ReflTransGen.head (r := fun a b => Prim e a b ∨ b = { a with tries := a.tries + 1 })
    (Or.inr rfl) h

theorem Prim.reach {e : Env X V} {s s' : St X V} (h : Prim e s s') : Reach e s s' := .single h

theorem restartIteration_reach (e : Env X V) (s : St X V) : Reach e s (restartIteration e s) := by
  unfold restartIteration
  split
  · exact (Prim.rollJ s _ (Or.inr rfl)).reach
  · exact (Prim.rollP s _ (Or.inr rfl)).reach
  · exact (Prim.save s).reach

theorem softRestart_reach (e : Env X V) (s : St X V) : Reach e s (softRestart e s) := by
  unfold softRestart
  split
  · refine Relation.ReflTransGen.tail (b := rollbackJacobian e s) ?_ (Prim.clear _)
    have := Prim.rollJ (e := e) s 1 (Or.inl rfl)
    rw [mul_one] at this
    exact this.reach
  · refine Relation.ReflTransGen.tail (b := rollbackProgress e s) ?_ (Prim.clear _)
    have := Prim.rollP (e := e) s 1 (Or.inl rfl)
    rw [div_one] at this
    exact this.reach
  · exact ((Prim.save s).reach).tail (Prim.clear _)

theorem softRestart_delt (e : Env X V) (s : St X V) : (softRestart e s).delt0r = s.delt0r := by
  unfold softRestart rollbackJacobian rollbackProgress saveState St.emit
  split <;> rfl

theorem softRestart_evals (e : Env X V) (s : St X V) : (softRestart e s).evals = s.evals := by
  unfold softRestart rollbackJacobian rollbackProgress saveState St.emit
  split <;> rfl

theorem restartIteration_evals (e : Env X V) (s : St X V) :
    (restartIteration e s).evals = s.evals := by
  unfold restartIteration rollbackJacobian rollbackProgress saveState St.emit
  split <;> rfl

theorem restartIteration_iter2 (e : Env X V) (s : St X V) :
    (restartIteration e s).iter2 = s.iter2 := by
  unfold restartIteration rollbackJacobian rollbackProgress saveState St.emit
  split <;> rfl

theorem softRestart_iter2 (e : Env X V) (s : St X V) : (softRestart e s).iter2 = s.iter2 := by
  unfold softRestart rollbackJacobian rollbackProgress saveState St.emit
  split <;> rfl

/-- components a force evaluation does not touch -/
structure Kept (s s' : St X V) : Prop where
  delt : s'.delt0r = s.delt0r
  iter2 : s'.iter2 = s.iter2
  status : s'.status = s.status
  liter : s'.liter = s.liter

theorem Kept.trans {a b c : St X V} (h1 : Kept a b) (h2 : Kept b c) : Kept a c :=
  ⟨h2.delt.trans h1.delt, h2.iter2.trans h1.iter2, h2.status.trans h1.status,
    h2.liter.trans h1.liter⟩

/-- state carried by the result of an evaluation -/
def UpdRes.Sat (P : St X V → Prop) : UpdRes X V → Prop
  | .ok s _ => P s
  | .err s _ => P s
  | .ub => True

theorem vacuumBlock_sat (e : Env X V) (p : Phys) (s : St X V) :
    (vacuumBlock e p s).Sat (fun s' => Reach e s s' ∧ Kept s s' ∧ s'.evals = s.evals) := by
  have k1 : Kept s (vacuumInterval (vacuumSchedule s)) ∧
      (vacuumInterval (vacuumSchedule s)).evals = s.evals := by
    unfold vacuumInterval vacuumSchedule St.emit
    constructor
    · constructor <;> (dsimp only; split <;> split <;> rfl)
    · dsimp only; split <;> split <;> rfl
  have k2 : ∀ t : St X V, Kept t (vacuumSolved t) ∧ (vacuumSolved t).evals = t.evals := by
    intro t
    unfold vacuumSolved St.emit
    constructor
    · constructor <;> (split <;> rfl)
    · split <;> rfl
  unfold vacuumBlock
  split
  · rename_i h
    split
    · trivial
    · rename_i hn
      have r1 : Reach e s (vacuumInterval (vacuumSchedule s)) :=
        ((Prim.sched s h.1 h.2 hn).reach).tail (Prim.interval _)
      dsimp only
      split
      · rename_i hv
        have r2 := r1.tail (Prim.solved _ hv)
        obtain ⟨k2a, k2b⟩ := k2 (vacuumInterval (vacuumSchedule s))
        have k := k1.1.trans k2a
        have ke := k2b.trans k1.2
        split
        · exact ⟨r2, k, ke⟩
        · split
          · rename_i hi
            exact ⟨r2.tail (Prim.softFlag _ hi), ⟨k.delt, k.iter2, k.status, k.liter⟩, ke⟩
          · exact ⟨r2, k, ke⟩
      · exact ⟨r1, k1.1, k1.2⟩
  · exact ⟨.refl, ⟨rfl, rfl, rfl, rfl⟩, rfl⟩

theorem update_sat (e : Env X V) (s : St X V) :
    (update e s).Sat (fun s' => Reach e s s' ∧ Kept s s' ∧ s'.evals = s.evals + 1) := by
  unfold update
  dsimp only
  have r0 : Reach e s (beginUpdate e s) := (Prim.begin_ s).reach
  split
  · exact ⟨r0.tail (Prim.bad _), ⟨rfl, rfl, rfl, rfl⟩, rfl⟩
  · split
    · exact ⟨r0.tail (Prim.failed _), ⟨rfl, rfl, rfl, rfl⟩, rfl⟩
    · have hv := vacuumBlock_sat e (e.phys s.evals) (beginUpdate e s)
      split
      · rename_i s' need hh
        rw [hh] at hv
        obtain ⟨hr, hk, he⟩ := hv
        have r1 := (r0.trans hr).tail (Prim.setRes s' s.evals)
        unfold finishUpdate
        dsimp only
        split
        · exact ⟨r1, ⟨hk.delt, hk.iter2, hk.status, hk.liter⟩, he⟩
        · refine ⟨r1.tail (Prim.huge _), ?_, ?_⟩
          · unfold hugeForces
            split <;> exact ⟨hk.delt, hk.iter2, hk.status, hk.liter⟩
          · unfold hugeForces
            split <;> exact he
      · rename_i s' r hh
        rw [hh] at hv
        obtain ⟨hr, hk, he⟩ := hv
        exact ⟨(r0.trans hr).tail (Prim.failed _), ⟨hk.delt, hk.iter2, hk.status, hk.liter⟩, he⟩
      · trivial

theorem updateForwardModel_sat (e : Env X V) (s : St X V) :
    (updateForwardModel e s).Sat
      (fun s' => Reach e s s' ∧ Kept s s' ∧ s'.evals = s.evals + 1) := by
  have h := update_sat e s
  unfold updateForwardModel
  split
  · rename_i s' hh
    rw [hh] at h
    obtain ⟨hr, hk, he⟩ := h
    refine ⟨hr.trans (softRestart_reach e s'), ?_, ?_⟩
    · refine hk.trans ⟨softRestart_delt e s', softRestart_iter2 e s', ?_, ?_⟩
      · unfold softRestart rollbackJacobian rollbackProgress saveState St.emit
        split <;> rfl
      · unfold softRestart rollbackJacobian rollbackProgress saveState St.emit
        split <;> rfl
    · rw [softRestart_evals]; exact he
  · exact h

/-- a state that passes the convergence check with status normal has finite residuals -/
theorem convergence_finite (e : Env X V) (s : St X V)
    (h : (convergence e s).status = .normal) :
    (convergence e s).fsqr.isFinite = true ∧ (convergence e s).fsqz.isFinite = true ∧
      (convergence e s).fsql.isFinite = true := by
  unfold convergence at *
  split at h
  · simp at h
  · rename_i hc
    rw [if_neg hc]
    have : s.fsqr.isFinite = true ∧ s.fsqz.isFinite = true ∧ s.fsql.isFinite = true := by
      by_contra hcon
      exact hc (Or.inr hcon)
    split <;> exact this

theorem evolve_sat (e : Env X V) (s : St X V) :
    (evolve e s).Sat
      (fun s' => Reach e s s' ∧ s'.iter2 = s.iter2 ∧ s'.evals = s.evals + 1) := by
  unfold evolve
  dsimp only
  have h := updateForwardModel_sat e { s with restart := .noRestart }
  have r0 : Reach e s { s with restart := .noRestart } := (Prim.clear s).reach
  split
  · rename_i s' need hh
    rw [hh] at h
    obtain ⟨hr, hk, he⟩ := h
    have r1 := (r0.trans hr).tail (Prim.conv s')
    have hc2 : (convergence e s').iter2 = s.iter2 := by
      unfold convergence
      split
      · exact hk.iter2
      · split <;> exact hk.iter2
    have hce : (convergence e s').evals = s.evals + 1 := by
      unfold convergence
      split
      · exact he
      · split <;> exact he
    have hcd : (convergence e s').delt0r = s.delt0r := by
      unfold convergence
      split
      · exact hk.delt
      · split <;> exact hk.delt
    split
    · exact ⟨r1, hc2, hce⟩
    · rename_i hn
      push Not at hn
      have hst := Prim.step (e := e) (convergence e s') hn.1 hn.2 (convergence_finite e s' hn.1)
      rw [hcd] at hst
      exact ⟨r1.tail hst, hc2, hce⟩
  · rename_i r hh
    match hm : updateForwardModel e { s with restart := .noRestart } with
    | .ok s' n => exact absurd hm (hh s' n)
    | .err s' b =>
      rw [hm] at h
      exact ⟨r0.trans h.1, h.2.1.iter2, h.2.2⟩
    | .ub => trivial

theorem control_reach (e : Env X V) (k : Int) (s : St X V) : Reach e s (control e k s) := by
  unfold control
  split
  · dsimp only
    split
    · exact restartIteration_reach e s
    · split
      · exact (Prim.flag s _).reach
      · exact .refl
  · split
    · exact restartIteration_reach e s
    · split
      · exact (Prim.flag s _).reach
      · split
        · exact (Prim.flag s _).reach
        · exact .refl

theorem control_iter2 (e : Env X V) (k : Int) (s : St X V) :
    (control e k s).iter2 = s.iter2 := by
  unfold control
  split
  · dsimp only
    split
    · exact restartIteration_iter2 e s
    · split <;> rfl
  · split
    · exact restartIteration_iter2 e s
    · split
      · rfl
      · split <;> rfl

theorem control_evals (e : Env X V) (k : Int) (s : St X V) :
    (control e k s).evals = s.evals := by
  unfold control
  split
  · dsimp only
    split
    · exact restartIteration_evals e s
    · split <;> rfl
  · split
    · exact restartIteration_evals e s
    · split
      · rfl
      · split <;> rfl

theorem bestResiduals_iter2 (e : Env X V) (k : Int) (s : St X V) :
    (bestResiduals e k s).iter2 = s.iter2 := by
  unfold bestResiduals; dsimp only; split <;> rfl

theorem bestResiduals_evals (e : Env X V) (k : Int) (s : St X V) :
    (bestResiduals e k s).evals = s.evals := by
  unfold bestResiduals; dsimp only; split <;> rfl

theorem giveUpCheck_iter2 (s : St X V) : (giveUpCheck s).iter2 = s.iter2 := by
  unfold giveUpCheck St.emit; split <;> rfl

theorem giveUpCheck_evals (s : St X V) : (giveUpCheck s).evals = s.evals := by
  unfold giveUpCheck St.emit; split <;> rfl

theorem vacuumActivate_iter2 (s : St X V) : (vacuumActivate s).iter2 = s.iter2 := by
  unfold vacuumActivate St.emit; split <;> rfl

theorem vacuumActivate_evals (s : St X V) : (vacuumActivate s).evals = s.evals := by
  unfold vacuumActivate St.emit; split <;> rfl

theorem act_spec (e : Env X V) (bad : Int) (s : St X V) :
    Reach e s (act e s.iter2 bad s).1 ∧ (act e s.iter2 bad s).1.iter2 = s.iter2 ∧
      (act e s.iter2 bad s).1.evals = s.evals ∧
      ((act e s.iter2 bad s).2 = bad ∨ (act e s.iter2 bad s).2 = bad + 1) := by
  unfold act
  split
  · refine ⟨?_, restartIteration_iter2 e s, restartIteration_evals e s, Or.inr rfl⟩
    exact (restartIteration_reach e s).tail
      (Prim.iter1 _ _ (restartIteration_iter2 e s).symm)
  · split
    · split
      · exact ⟨(Prim.intr s).reach, rfl, rfl, Or.inl rfl⟩
      · exact ⟨.refl, rfl, rfl, Or.inl rfl⟩
    · exact ⟨.refl, rfl, rfl, Or.inl rfl⟩

theorem endOfIteration_next (e : Env X V) (fi bad : Int) (s : St X V) (hi : s.iter2 = fi - bad) :
    ∃ s' bad', endOfIteration e fi bad s = .next s' bad' ∧ Reach e s s' ∧
      s'.iter2 = (fi + 1) - bad' ∧ s'.evals = s.evals ∧ (bad' = bad ∨ bad' = bad + 1) := by
  unfold endOfIteration
  dsimp only
  set t := control e (fi - bad) (bestResiduals e (fi - bad) (giveUpCheck s)) with ht
  have ht2 : t.iter2 = fi - bad := by
    rw [ht, control_iter2, bestResiduals_iter2, giveUpCheck_iter2, hi]
  have hte : t.evals = s.evals := by
    rw [ht, control_evals, bestResiduals_evals, giveUpCheck_evals]
  have hr : Reach e s t := by
    have a := ((Prim.giveUp (e := e) s).reach).tail (Prim.best _ (fi - bad))
    exact a.trans (control_reach e _ _)
  obtain ⟨a1, a2, a3, a4⟩ := act_spec e bad t
  rw [ht2] at a1 a2 a3 a4
  refine ⟨_, _, rfl, ?_, ?_, ?_, a4⟩
  · have r := (hr.trans a1).tail (Prim.vacOn _)
    set w := vacuumActivate (act e (fi - bad) bad t).1 with hw
    have hw2 : w.iter2 = fi - bad := by rw [hw, vacuumActivate_iter2, a2]
    rcases a4 with a4 | a4
    · rw [a4]
      exact r.tail (Prim.iter2 _ _ (by rw [hw2]))
    · rw [a4]
      have : ({ w with iter2 := fi - (bad + 1) + 1 } : St X V) = w := by
        have e1 : fi - (bad + 1) + 1 = w.iter2 := by rw [hw2]; ring
        rw [e1]
      rw [this]; exact r
  · dsimp only; ring
  · change (vacuumActivate (act e (fi - bad) bad t).1).evals = s.evals
    rw [vacuumActivate_evals, a3, hte]

/-- number of retries still possible at a given counter value -/
def retriesLeft (n : Int) : Nat := if n = 0 then 3 else if n ≤ 25 then 2 else if n ≤ 50 then 1 else 0

theorem retriesLeft_anti {a b : Int} (ha : 0 ≤ a) (h : a ≤ b) : retriesLeft b ≤ retriesLeft a := by
  unfold retriesLeft; split_ifs <;> omega

/-- the counter never decreases -/
theorem prim_ijacob (e : Env X V) (n : Int) (s s' : St X V) (h : Prim e s s')
    (hs : n ≤ s.ijacob ∧ 0 ≤ s.ijacob) : n ≤ s'.ijacob ∧ 0 ≤ s'.ijacob := by
  cases h <;>
    simp only [beginUpdate, evalBad, evalFailed, St.emit, vacuumSchedule, vacuumInterval,
      vacuumSolved, setResiduals, hugeForces, rollbackJacobian, rollbackProgress, saveState,
      convergence, timeStep, axisRetry, stepReset, restartIteration, giveUpCheck, bestResiduals,
      vacuumActivate] <;>
    (try split_ifs) <;> (try dsimp only) <;> omega

/-- One pass of the loop: what it does and the state it leaves. -/
theorem iterate_spec (e : Env X V) (fi bad : Int) (s : St X V) (hi : s.iter2 = fi - bad) :
    (∃ s', iterate e fi bad s = .stop .ub s' ∧ Reach e s s' ∧ s'.evals ≤ s.evals + 1 ∧
      s'.iter2 = s.iter2) ∨
    (∃ b s', iterate e fi bad s = .stop (.error b) s' ∧ Reach e s s' ∧ s'.evals = s.evals + 1 ∧
      s'.iter2 = s.iter2) ∨
    (∃ s', iterate e fi bad s = .stop .normal s' ∧ Reach e s s' ∧ s'.evals = s.evals + 1 ∧
      s'.iter2 = s.iter2 ∧ s'.status ≠ .success) ∨
    (∃ t s', iterate e fi bad s = .stop .mustRetry s' ∧ Reach e s t ∧ Reach e t s' ∧
      s'.evals = s.evals + 1 ∧ s'.iter2 = s.iter2 ∧
      (t.ijacob = 0 ∧ s' = axisRetry t ∨ (t.ijacob = 25 ∨ t.ijacob = 50) ∧ s' = stepReset e t)) ∨
    (∃ s' bad', iterate e fi bad s = .next s' bad' ∧ Reach e s s' ∧ s'.evals = s.evals + 1 ∧
      s'.iter2 = (fi + 1) - bad' ∧ (bad' = bad ∨ bad' = bad + 1)) := by
  unfold iterate
  have h := evolve_sat e s
  match hm : evolve e s with
  | .ub => exact Or.inl ⟨s, rfl, .refl, by omega, rfl⟩
  | .err s' b =>
    rw [hm] at h
    exact Or.inr (Or.inl ⟨b, s', rfl, h.1, h.2.2, h.2.1⟩)
  | .ok s' n =>
    rw [hm] at h
    obtain ⟨hr, hi2, he⟩ := h
    dsimp only
    split
    · rename_i hc
      refine Or.inr (Or.inr (Or.inr (Or.inl ⟨s', _, rfl, hr, (Prim.axis s' hc.1).reach, ?_, ?_,
        Or.inl ⟨hc.1, rfl⟩⟩)))
      · exact he
      · exact hi2
    · split
      · rename_i hs
        split
        · exact Or.inr (Or.inr (Or.inl ⟨s', rfl, hr, he, hi2, hs.2⟩))
        · exact Or.inr (Or.inl ⟨false, s', rfl, hr, he, hi2⟩)
      · split
        · rename_i hj
          refine Or.inr (Or.inr (Or.inr (Or.inl ⟨s', _, rfl, hr, (Prim.reset s' hj).reach, ?_, ?_,
            Or.inr ⟨hj, rfl⟩⟩)))
          · unfold stepReset
            exact (restartIteration_evals e { s' with restart := .badJacobian }).trans he
          · unfold stepReset
            exact (restartIteration_iter2 e { s' with restart := .badJacobian }).trans hi2
        · obtain ⟨s2, bad', h1, h2, h3, h4, h5⟩ :=
            endOfIteration_next e fi bad s' (hi2.trans hi)
          exact Or.inr (Or.inr (Or.inr (Or.inr ⟨s2, bad', h1, hr.trans h2, h4.trans he, h3, h5⟩)))

/-- The loop counter argument of `loop` is exact: `loop` satisfies the equation of the C++ `for`
loop with its condition `force_iteration <= niterv && m_liter_flag`. -/
theorem loop_unfold (e : Env X V) (fi bad : Int) (s : St X V) :
    loop e (e.niter + 1 - fi).toNat fi bad s =
      if fi ≤ e.niter ∧ s.liter = true then
        match iterate e fi bad s with
        | .next s' bad' => loop e (e.niter + 1 - (fi + 1)).toNat (fi + 1) bad' s'
        | .stop r s' => (r, s')
      else (.normal, s) := by
  by_cases h : fi ≤ e.niter
  · have h1 : (e.niter + 1 - fi).toNat = (e.niter + 1 - (fi + 1)).toNat + 1 := by omega
    rw [h1, loop]
    simp only [h, true_and]
    split
    · cases iterate e fi bad s <;> rfl
    · rfl
  · have h1 : (e.niter + 1 - fi).toNat = 0 := by omega
    rw [h1, loop]
    simp [h]

theorem loop_spec (e : Env X V) (n : Nat) : ∀ (fi bad : Int) (s : St X V), s.iter2 = fi - bad →
    0 ≤ bad → 1 ≤ s.iter2 →
    Reach e s (loop e n fi bad s).2 ∧ (loop e n fi bad s).2.evals ≤ s.evals + n ∧
    1 ≤ (loop e n fi bad s).2.iter2 ∧
    (0 ≤ s.ijacob → (loop e n fi bad s).1 = .mustRetry →
      retriesLeft (loop e n fi bad s).2.ijacob < retriesLeft s.ijacob) := by
  induction n with
  | zero =>
    intro fi bad s _ _ h1
    simp only [loop]
    exact ⟨.refl, by omega, h1, by simp⟩
  | succ n ih =>
    intro fi bad s hi hb h1
    rw [loop]
    split
    · rcases iterate_spec e fi bad s hi with ⟨s', h, hr, he, h2⟩ | ⟨b, s', h, hr, he, h2⟩ |
        ⟨s', h, hr, he, h2, _⟩ | ⟨t, s', h, hr1, hr2, he, h2, hj⟩ | ⟨s', bad', h, hr, he, h2, hb'⟩
      · rw [h]; exact ⟨hr, by dsimp only; omega, by dsimp only; omega, by simp⟩
      · rw [h]; exact ⟨hr, by dsimp only; omega, by dsimp only; omega, by simp⟩
      · rw [h]; exact ⟨hr, by dsimp only; omega, by dsimp only; omega, by simp⟩
      · rw [h]
        refine ⟨hr1.trans hr2, by dsimp only; omega, by dsimp only; omega, fun h0 _ => ?_⟩
        have ht := hr1.inv (I := fun u => s.ijacob ≤ u.ijacob ∧ 0 ≤ u.ijacob)
          (fun a b hp => prim_ijacob e s.ijacob a b hp) ⟨le_refl _, h0⟩
        rcases hj with ⟨hj, rfl⟩ | ⟨hj, rfl⟩
        · have : s.ijacob = 0 := by omega
          simp [retriesLeft, axisRetry, St.emit, this]
        · have e1 : (stepReset e t).ijacob = t.ijacob + 1 := by
            simp [stepReset, restartIteration, rollbackJacobian, St.emit]
          dsimp only
          rw [e1]
          unfold retriesLeft
          rcases hj with hj | hj <;> (rw [hj] at ht ⊢; split_ifs <;> omega)
      · rw [h]
        have hi' : s'.iter2 = fi + 1 - bad' := h2
        have h1' : 1 ≤ s'.iter2 := by rcases hb' with hb' | hb' <;> omega
        obtain ⟨a1, a2, a3, a4⟩ := ih (fi + 1) bad' s' hi' (by rcases hb' with hb' | hb' <;> omega) h1'
        refine ⟨hr.trans a1, by dsimp only; omega, a3, fun h0 hm => ?_⟩
        have ht := hr.inv (I := fun u => s.ijacob ≤ u.ijacob ∧ 0 ≤ u.ijacob)
          (fun a b hp => prim_ijacob e s.ijacob a b hp) ⟨le_refl _, h0⟩
        exact lt_of_lt_of_le (a4 ht.2 hm) (retriesLeft_anti h0 ht.1)
    · exact ⟨.refl, by dsimp only; omega, h1, by simp⟩

theorem enterLoop_reach (e : Env X V) (s : St X V) : Reach e s (enterLoop e s) := by
  unfold enterLoop
  dsimp only
  split
  · exact ((Prim.enter s _).reach).tail (Prim.start _)
  · exact (Prim.start s).reach

theorem enterLoop_kept (e : Env X V) (s : St X V) :
    (enterLoop e s).iter2 = s.iter2 ∧ (enterLoop e s).evals = s.evals ∧
      (enterLoop e s).ijacob = s.ijacob := by
  unfold enterLoop saveState St.emit
  dsimp only
  split <;> exact ⟨rfl, rfl, rfl⟩

theorem solveEquilibriumLoop_spec (e : Env X V) (s : St X V) (h1 : 1 ≤ s.iter2) :
    Reach e s (solveEquilibriumLoop e s).2 ∧
    (solveEquilibriumLoop e s).2.evals ≤ s.evals + e.niter.toNat ∧
    1 ≤ (solveEquilibriumLoop e s).2.iter2 ∧
    (0 ≤ s.ijacob → (solveEquilibriumLoop e s).1 = .mustRetry →
      retriesLeft (solveEquilibriumLoop e s).2.ijacob < retriesLeft s.ijacob) := by
  unfold solveEquilibriumLoop
  dsimp only
  obtain ⟨k1, k2, k3⟩ := enterLoop_kept e s
  obtain ⟨a1, a2, a3, a4⟩ := loop_spec e (e.niter + 1 - (enterLoop e s).iter2).toNat
    (enterLoop e s).iter2 0 (enterLoop e s) (by omega) (le_refl _) (by omega)
  refine ⟨(enterLoop_reach e s).trans a1, ?_, a3, ?_⟩
  · rw [k2] at a2
    omega
  · rw [k3] at a4
    exact a4

theorem prim_tries (e : Env X V) (n : Nat) (s s' : St X V) (h : Prim e s s')
    (hs : s.tries = n) : s'.tries = n := by
  subst hs
  cases h <;>
    simp only [beginUpdate, evalBad, evalFailed, St.emit, vacuumSchedule, vacuumInterval,
      vacuumSolved, setResiduals, hugeForces, rollbackJacobian, rollbackProgress, saveState,
      convergence, timeStep, axisRetry, stepReset, restartIteration, giveUpCheck, bestResiduals,
      vacuumActivate] <;>
    (try split_ifs) <;> rfl

/-- `attempts` satisfies the equation of the C++ retry loop, `k` being the retry counter. -/
theorem attempts_unfold (e : Env X V) (k : Int) (r : LoopRet) (s : St X V) :
    attempts e (e.niter - k).toNat r s =
      if k < e.niter ∧ r = .mustRetry ∧ s.liter = true then
        attempts e (e.niter - (k + 1)).toNat
          (solveEquilibriumLoop e { s with tries := s.tries + 1 }).1
          (solveEquilibriumLoop e { s with tries := s.tries + 1 }).2
      else (r, s) := by
  by_cases h : k < e.niter
  · have h1 : (e.niter - k).toNat = (e.niter - (k + 1)).toNat + 1 := by omega
    rw [h1, attempts]
    simp only [h, true_and]
  · have h1 : (e.niter - k).toNat = 0 := by omega
    rw [h1, attempts]
    simp [h]

theorem attempts_spec (e : Env X V) (n : Nat) : ∀ (r : LoopRet) (s : St X V), 1 ≤ s.iter2 →
    0 ≤ s.ijacob →
    ReachT e s (attempts e n r s).2 ∧
    (attempts e n r s).2.evals ≤ s.evals + (retriesLeft s.ijacob + 1) * e.niter.toNat ∧
    (attempts e n r s).2.tries ≤ s.tries + (retriesLeft s.ijacob + 1) ∧
    (r ≠ .mustRetry → attempts e n r s = (r, s)) := by
  induction n with
  | zero =>
    intro r s _ _
    simp only [attempts]
    exact ⟨.refl, Nat.le_add_right _ _, by omega, fun _ => trivial⟩
  | succ n ih =>
    intro r s h1 h0
    rw [attempts]
    split
    · rename_i hc
      obtain ⟨a1, a2, a3, a4⟩ := solveEquilibriumLoop_spec e { s with tries := s.tries + 1 } h1
      dsimp only
      generalize hq : solveEquilibriumLoop e { s with tries := s.tries + 1 } = q at a1 a2 a3 a4 ⊢
      have hj := a1.inv (I := fun u => s.ijacob ≤ u.ijacob ∧ 0 ≤ u.ijacob)
          (fun a b hp => prim_ijacob e s.ijacob a b hp) ⟨le_refl _, h0⟩
      have ht := a1.inv (I := fun u => u.tries = s.tries + 1)
          (fun a b hp => prim_tries e _ a b hp) rfl
      obtain ⟨b1, b2, b4, b3⟩ := ih q.1 q.2 a3 hj.2
      dsimp only at a2 a4
      refine ⟨(ReachT.retry a1.toT).trans b1, ?_, ?_,
        fun h => absurd hc.1 h⟩
      · by_cases hm : q.1 = .mustRetry
        · have h4 := a4 h0 hm
          have : (retriesLeft q.2.ijacob + 1) * e.niter.toNat
              ≤ retriesLeft s.ijacob * e.niter.toNat := Nat.mul_le_mul_right _ h4
          have h5 : (retriesLeft s.ijacob + 1) * e.niter.toNat
              = retriesLeft s.ijacob * e.niter.toNat + e.niter.toNat := by ring
          omega
        · rw [b3 hm]
          have h5 : (retriesLeft s.ijacob + 1) * e.niter.toNat
              = retriesLeft s.ijacob * e.niter.toNat + e.niter.toNat := by ring
          dsimp only
          omega
      · by_cases hm : q.1 = .mustRetry
        · have h4 := a4 h0 hm
          omega
        · rw [b3 hm]
          dsimp only
          omega
    · exact ⟨.refl, Nat.le_add_right _ _, by dsimp only; omega, fun _ => rfl⟩

/-- the state after `SolveEquilibrium` differs from the state after the last attempt only in
`status_` (unrecoverable error) -/
theorem solveEquilibrium_reach (e : Env X V) (s : St X V) (h1 : 1 ≤ s.iter2) (h0 : 0 ≤ s.ijacob) :
    ∃ t, ReachT e { s with liter := true, lreset := false } t ∧
      ((solveEquilibrium e s).2 = t ∨ (solveEquilibrium e s).2 = { t with status := .unrecoverable }) ∧
      t.evals ≤ s.evals + (retriesLeft s.ijacob + 1) * e.niter.toNat ∧
      t.tries ≤ s.tries + (retriesLeft s.ijacob + 1) := by
  obtain ⟨a1, a2, a3, _⟩ := attempts_spec e e.niter.toNat .mustRetry
    { s with liter := true, lreset := false } h1 h0
  refine ⟨_, a1, ?_, a2, a3⟩
  unfold solveEquilibrium
  dsimp only
  split
  · exact Or.inl rfl
  · split
    · exact Or.inl rfl
    · split
      · exact Or.inr rfl
      · exact Or.inl rfl
    · exact Or.inl rfl

end Verif.Control
