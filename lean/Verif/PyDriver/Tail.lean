import Verif.PyDriver.Pass

/-!
# What the C++ loop still does after its last force evaluation
-/
namespace Verif.PyDriver
open Verif Verif.Control

variable {X V : Type}

/-- from the first state to the second one no force is computed and no time step is done; the geometry only changes by rollbacks -/
structure TailOf (s t : St X V) : Prop where
  ext : ∃ l, t.log = l ++ s.log ∧ (∀ ev ∈ l, quiet ev = true) ∧ ((∀ ev ∈ l, rollsBack ev = false) → t.x = s.x ∧ t.v = s.v)
  intr : t.interrupted = s.interrupted
  ijacob : s.ijacob ≤ t.ijacob

theorem TailOf.same {s t : St X V} (h1 : t.log = s.log) (h2 : t.x = s.x) (h3 : t.v = s.v) (h4 : t.interrupted = s.interrupted)
    (h5 : t.ijacob = s.ijacob) : TailOf s t :=
  ⟨⟨[], by simp [h1], by simp, fun _ => ⟨h2, h3⟩⟩, h4, le_of_eq h5.symm⟩

theorem TailOf.event {s t : St X V} (ev : Ev X V) (h1 : t.log = ev :: s.log) (hq : quiet ev = true)
    (h2 : rollsBack ev = false → t.x = s.x ∧ t.v = s.v) (h4 : t.interrupted = s.interrupted)
    (h5 : s.ijacob ≤ t.ijacob) : TailOf s t :=
  ⟨⟨[ev], by simp [h1], by simpa using hq, fun h => h2 (h ev (by simp))⟩, h4, h5⟩

theorem TailOf.refl (s : St X V) : TailOf s s := .same rfl rfl rfl rfl rfl

theorem TailOf.trans {s t u : St X V} (h1 : TailOf s t) (h2 : TailOf t u) : TailOf s u := by
  obtain ⟨⟨l1, e1, q1, r1⟩, i1, j1⟩ := h1
  obtain ⟨⟨l2, e2, q2, r2⟩, i2, j2⟩ := h2
  refine ⟨⟨l2 ++ l1, by rw [e2, e1, List.append_assoc], ?_, ?_⟩, i2.trans i1, le_trans j1 j2⟩
  · intro ev h
    rcases List.mem_append.1 h with h | h
    · exact q2 ev h
    · exact q1 ev h
  · intro h
    have a := r1 fun ev m => h ev (List.mem_append_right _ m)
    have b := r2 fun ev m => h ev (List.mem_append_left _ m)
    exact ⟨b.1.trans a.1, b.2.trans a.2⟩

theorem giveUpCheck_tail (s : St X V) : TailOf s (giveUpCheck s) := by
  unfold giveUpCheck
  split
  · exact .event .giveUp rfl rfl (fun _ => ⟨rfl, rfl⟩) rfl (le_refl _)
  · exact .refl s

theorem best_tail (e : Env X V) (i : Int) (s : St X V) : TailOf s (bestResiduals e i s) := by
  unfold bestResiduals
  dsimp only
  split <;> exact .same rfl rfl rfl rfl rfl

theorem saveState_tail (s : St X V) : TailOf s (saveState s) :=
  .event (.save s.x) rfl rfl (fun _ => ⟨rfl, rfl⟩) rfl (le_refl _)

theorem rollbackJacobian_tail (e : Env X V) (s : St X V) : TailOf s (rollbackJacobian e s) :=
  TailOf.trans (t := { s with v := e.zeroV, x := s.backup, log := .restore s.backup e.zeroV :: s.log })
    (.event (.restore s.backup e.zeroV) rfl rfl (fun h => by cases h) rfl (le_refl _))
    (.event (.counter (s.ijacob + 1)) rfl rfl (fun _ => ⟨rfl, rfl⟩) rfl (by show s.ijacob ≤ s.ijacob + 1; omega))

theorem rollbackProgress_tail (e : Env X V) (s : St X V) : TailOf s (rollbackProgress e s) :=
  .event (.restore s.backup e.zeroV) rfl rfl (fun h => by cases h) rfl (le_refl _)

theorem restartIteration_tail (e : Env X V) (s : St X V) : TailOf s (restartIteration e s) := by
  unfold restartIteration
  split
  · exact (rollbackJacobian_tail e s).trans (.same rfl rfl rfl rfl rfl)
  · exact (rollbackProgress_tail e s).trans (.same rfl rfl rfl rfl rfl)
  · exact saveState_tail s

theorem control_tail (e : Env X V) (i : Int) (s : St X V) : TailOf s (Control.control e i s) := by
  have r := restartIteration_tail e s
  have f : TailOf s s := .refl s
  have g : ∀ q, TailOf s { s with restart := q } := fun _ => .same rfl rfl rfl rfl rfl
  unfold Control.control
  dsimp only
  split
  · split
    · exact r
    · split
      · exact g _
      · exact f
  · split
    · exact r
    · split
      · exact g _
      · split
        · exact g _
        · exact f

theorem act_tail {e : Env X V} (hI : ∀ n, e.interrupt n = false) (i bad : Int) (s : St X V) : TailOf s (act e i bad s).1 := by
  rw [act_eq hI]
  split
  · exact (restartIteration_tail e s).trans (.same rfl rfl rfl rfl rfl)
  · exact .refl s

theorem vacuumActivate_tail (s : St X V) : TailOf s (vacuumActivate s) := by
  unfold vacuumActivate
  split
  · exact .event _ rfl rfl (fun _ => ⟨rfl, rfl⟩) rfl (le_refl _)
  · exact .refl s

theorem stepReset_tail (e : Env X V) (s : St X V) : TailOf s (stepReset e s) := by
  unfold stepReset
  refine TailOf.trans (t := restartIteration e { s with restart := .badJacobian }) ?_ ?_
  · exact TailOf.trans (t := { s with restart := .badJacobian }) (.same rfl rfl rfl rfl rfl) (restartIteration_tail e _)
  · exact .event (.stepReset s.ijacob) rfl rfl (fun _ => ⟨rfl, rfl⟩) rfl (le_refl _)

theorem act_misc {e : Env X V} (hI : ∀ n, e.interrupt n = false) (i bad : Int) (s : St X V) :
    (act e i bad s).1.status = s.status ∧ (act e i bad s).1.liter = s.liter := by
  rw [act_eq hI]
  split
  · exact ⟨(restartIteration_misc e s).1, (restartIteration_misc e s).2.1⟩
  · exact ⟨rfl, rfl⟩

theorem control_misc (e : Env X V) (i : Int) (s : St X V) :
    (Control.control e i s).status = s.status ∧ (Control.control e i s).liter = s.liter := by
  have r := restartIteration_misc e s
  unfold Control.control
  dsimp only
  repeat' split
  all_goals first | exact ⟨r.1, r.2.1⟩ | exact ⟨rfl, rfl⟩

theorem best_misc (e : Env X V) (i : Int) (s : St X V) :
    (bestResiduals e i s).status = s.status ∧ (bestResiduals e i s).liter = s.liter := by
  unfold bestResiduals
  dsimp only
  split <;> exact ⟨rfl, rfl⟩

theorem vacuumActivate_misc (s : St X V) :
    (vacuumActivate s).status = s.status ∧ (vacuumActivate s).liter = s.liter := by
  unfold vacuumActivate
  split <;> exact ⟨rfl, rfl⟩

/-- the rest of a pass is a tail, and only the counter check touches status and loop flag -/
theorem endOfIteration_tail {e : Env X V} (hI : ∀ n, e.interrupt n = false) (fi bad : Int) (s : St X V) :
    ∃ t b, endOfIteration e fi bad s = .next t b ∧ TailOf s t ∧ t.status = (giveUpCheck s).status ∧ t.liter = (giveUpCheck s).liter := by
  refine ⟨_, _, rfl, ?_, ?_, ?_⟩
  · refine (giveUpCheck_tail s).trans ((best_tail e (fi - bad) _).trans ((control_tail e (fi - bad) _).trans
      ((act_tail hI (fi - bad) bad _).trans ((vacuumActivate_tail _).trans (.same rfl rfl rfl rfl rfl)))))
  · dsimp only
    rw [(vacuumActivate_misc _).1, (act_misc hI _ _ _).1, (control_misc e _ _).1, (best_misc e _ _).1]
  · dsimp only
    rw [(vacuumActivate_misc _).2, (act_misc hI _ _ _).2, (control_misc e _ _).2, (best_misc e _ _).2]

end Verif.PyDriver
