import Verif.Control.Invariants

/-!
# Iteration-level invariants (helper file)
-/
namespace Verif.Control
open Verif

variable {X V : Type}

def Ev.quiet : Ev X V → Bool
  | .evaluate _ => false
  | .result _ => false
  | .advance _ _ _ => false
  | .reinit _ => false
  | .giveUp => false
  | .vac _ .initialized _ => false
  | _ => true

/-- `s'` comes from `s` without evaluating, advancing or rebuilding the geometry -/
structure Quiet (s s' : St X V) : Prop where
  fsqr : s'.fsqr = s.fsqr
  fsqz : s'.fsqz = s.fsqz
  fsql : s'.fsql = s.fsql
  status : s'.status = s.status
  liter : s'.liter = true → s.liter = true
  log : ∃ L, s'.log = L ++ s.log ∧ (∀ a ∈ L, Ev.quiet a = true) ∧
    (s'.x = s.x ∨ ∃ a ∈ L, Ev.isRestore a = true)

theorem Quiet.refl (s : St X V) : Quiet s s :=
  ⟨rfl, rfl, rfl, rfl, id, [], rfl, by simp, Or.inl rfl⟩

theorem Quiet.trans {a b c : St X V} (h1 : Quiet a b) (h2 : Quiet b c) : Quiet a c := by
  obtain ⟨L1, e1, q1, x1⟩ := h1.log
  obtain ⟨L2, e2, q2, x2⟩ := h2.log
  refine ⟨h2.fsqr.trans h1.fsqr, h2.fsqz.trans h1.fsqz, h2.fsql.trans h1.fsql,
    h2.status.trans h1.status, fun h => h1.liter (h2.liter h), L2 ++ L1, ?_, ?_, ?_⟩
  · rw [e2, e1, List.append_assoc]
  · intro a ha
    rcases List.mem_append.1 ha with ha | ha
    · exact q2 a ha
    · exact q1 a ha
  · rcases x2 with x2 | ⟨a, ha, hr⟩
    · rcases x1 with x1 | ⟨a, ha, hr⟩
      · exact Or.inl (x2.trans x1)
      · exact Or.inr ⟨a, List.mem_append.2 (Or.inr ha), hr⟩
    · exact Or.inr ⟨a, List.mem_append.2 (Or.inl ha), hr⟩

theorem quiet_restart (e : Env X V) (s : St X V) : Quiet s (restartIteration e s) := by
  unfold restartIteration
  split
  · refine ⟨rfl, rfl, rfl, rfl, id, [_, _], rfl, ?_, ?_⟩
    · intro a ha; simp at ha; rcases ha with rfl | rfl <;> rfl
    · right; simp [Ev.isRestore]
  · refine ⟨rfl, rfl, rfl, rfl, id, [_], rfl, ?_, ?_⟩
    · intro a ha; simp at ha; subst ha; rfl
    · right; simp [Ev.isRestore]
  · refine ⟨rfl, rfl, rfl, rfl, id, [_], rfl, ?_, Or.inl rfl⟩
    intro a ha; simp at ha; subst ha; rfl

theorem quiet_soft (e : Env X V) (s : St X V) : Quiet s (softRestart e s) := by
  unfold softRestart
  split
  · refine ⟨rfl, rfl, rfl, rfl, id, [_, _], rfl, ?_, ?_⟩
    · intro a ha; simp at ha; rcases ha with rfl | rfl <;> rfl
    · right; simp [Ev.isRestore]
  · refine ⟨rfl, rfl, rfl, rfl, id, [_], rfl, ?_, ?_⟩
    · intro a ha; simp at ha; subst ha; rfl
    · right; simp [Ev.isRestore]
  · refine ⟨rfl, rfl, rfl, rfl, id, [_], rfl, ?_, Or.inl rfl⟩
    intro a ha; simp at ha; subst ha; rfl

/-- changes that touch none of the tracked components -/
theorem quiet_of_eq {s s' : St X V} (h1 : s'.fsqr = s.fsqr) (h2 : s'.fsqz = s.fsqz)
    (h3 : s'.fsql = s.fsql) (h4 : s'.status = s.status) (h5 : s'.liter = true → s.liter = true)
    (h6 : s'.log = s.log) (h7 : s'.x = s.x) : Quiet s s' :=
  ⟨h1, h2, h3, h4, h5, [], by simpa using h6, by simp, Or.inl h7⟩

theorem quiet_best (e : Env X V) (k : Int) (s : St X V) : Quiet s (bestResiduals e k s) := by
  unfold bestResiduals
  dsimp only
  split <;> exact quiet_of_eq rfl rfl rfl rfl id rfl rfl

theorem quiet_control (e : Env X V) (k : Int) (s : St X V) : Quiet s (control e k s) := by
  unfold control
  split
  · dsimp only
    split
    · exact quiet_restart e s
    · split
      · exact quiet_of_eq rfl rfl rfl rfl id rfl rfl
      · exact Quiet.refl s
  · split
    · exact quiet_restart e s
    · split
      · exact quiet_of_eq rfl rfl rfl rfl id rfl rfl
      · split
        · exact quiet_of_eq rfl rfl rfl rfl id rfl rfl
        · exact Quiet.refl s

theorem quiet_act (e : Env X V) (k bad : Int) (s : St X V) : Quiet s (act e k bad s).1 := by
  unfold act
  split
  · exact (quiet_restart e s).trans (quiet_of_eq rfl rfl rfl rfl id rfl rfl)
  · split
    · split
      · refine ⟨rfl, rfl, rfl, rfl, by intro h; simp [St.emit] at h, [_], rfl, ?_, Or.inl rfl⟩
        intro a ha; simp at ha; subst ha; rfl
      · exact Quiet.refl s
    · exact Quiet.refl s

theorem quiet_vacOn (s : St X V) : Quiet s (vacuumActivate s) := by
  unfold vacuumActivate
  split
  · refine ⟨rfl, rfl, rfl, rfl, id, [_], rfl, ?_, Or.inl rfl⟩
    intro a ha; simp at ha; subst ha; rfl
  · exact Quiet.refl s

/-! ## effect of quiet events on the history functions -/

section lists
variable {L t : List (Ev X V)}

theorem lastResult_quiet (h : ∀ a ∈ L, Ev.quiet a = true) : lastResult (L ++ t) = lastResult t := by
  induction L with
  | nil => rfl
  | cons a L ih =>
    have ih := ih (fun b hb => h b (List.mem_cons_of_mem _ hb))
    have ha := h a (List.mem_cons_self ..)
    cases a <;> simp_all [lastResult, Ev.quiet]

theorem lastEvaluated_quiet (h : ∀ a ∈ L, Ev.quiet a = true) :
    lastEvaluated (L ++ t) = lastEvaluated t := by
  induction L with
  | nil => rfl
  | cons a L ih =>
    have ih := ih (fun b hb => h b (List.mem_cons_of_mem _ hb))
    have ha := h a (List.mem_cons_self ..)
    cases a <;> simp_all [lastEvaluated, Ev.quiet]

theorem sinceEvaluation_quiet (h : ∀ a ∈ L, Ev.quiet a = true) :
    sinceEvaluation (L ++ t) = L ++ sinceEvaluation t := by
  induction L with
  | nil => rfl
  | cons a L ih =>
    have ih := ih (fun b hb => h b (List.mem_cons_of_mem _ hb))
    have ha := h a (List.mem_cons_self ..)
    cases a <;> simp_all [sinceEvaluation, Ev.quiet]

theorem beyond75_quiet (h : ∀ a ∈ L, Ev.quiet a = true) :
    evaluationsBeyond75 (L ++ t) = evaluationsBeyond75 t := by
  induction L with
  | nil => rfl
  | cons a L ih =>
    have ih := ih (fun b hb => h b (List.mem_cons_of_mem _ hb))
    have ha := h a (List.mem_cons_self ..)
    cases a <;> simp_all [evaluationsBeyond75, Ev.quiet]

theorem giveUp_quiet (h : ∀ a ∈ L, Ev.quiet a = true) : Ev.giveUp ∈ L ++ t ↔ Ev.giveUp ∈ t := by
  rw [List.mem_append]
  constructor
  · rintro (h1 | h1)
    · have := h _ h1; simp [Ev.quiet] at this
    · exact h1
  · exact Or.inr

theorem pending_quiet (h : ∀ a ∈ L, Ev.quiet a = true) (ht : softRestartPending t = false) :
    softRestartPending (L ++ t) = false := by
  induction L with
  | nil => exact ht
  | cons a L ih =>
    have ih := ih (fun b hb => h b (List.mem_cons_of_mem _ hb))
    have ha := h a (List.mem_cons_self ..)
    cases a with
    | vac a b c => cases b <;> simp_all [softRestartPending, Ev.quiet]
    | _ => simp_all [softRestartPending, Ev.quiet]

end lists

/-- advances happen only when no soft restart is pending -/
def SoftOk : Ev X V → List (Ev X V) → Prop
  | .advance _ _ _, t => softRestartPending t = false
  | _, _ => True

theorem all_quiet {L t : List (Ev X V)} (h : ∀ a ∈ L, Ev.quiet a = true) (ht : All SoftOk t) :
    All SoftOk (L ++ t) := by
  induction L with
  | nil => exact ht
  | cons a L ih =>
    refine ⟨?_, ih (fun b hb => h b (List.mem_cons_of_mem _ hb))⟩
    have ha := h a (List.mem_cons_self ..)
    cases a <;> simp_all [SoftOk, Ev.quiet]

/-! ## one force evaluation -/

/-- all residuals finite and within the tolerance -/
def Conv (e : Env X V) (s : St X V) : Prop :=
  (s.fsqr.isFinite = true ∧ s.fsqz.isFinite = true ∧ s.fsql.isFinite = true) ∧
  (s.fsqr.le e.ftol = true ∧ s.fsqz.le e.ftol = true ∧ s.fsql.le e.ftol = true)

/-- what is known when the status is `SUCCESSFUL_TERMINATION` -/
def Succ (e : Env X V) (s : St X V) : Prop :=
  ∃ x a b c, lastEvaluated s.log = some x ∧ lastResult s.log = some (.residuals a b c) ∧
    WithinTolerance e.ftol a b c ∧
    (s.x = x ∨ ∃ ev ∈ sinceEvaluation s.log, Ev.isRestore ev = true)

theorem Succ.quiet {e : Env X V} {s s' : St X V} (h : Succ e s) (q : Quiet s s') : Succ e s' := by
  obtain ⟨x, a, b, c, h1, h2, h3, h4⟩ := h
  obtain ⟨L, el, ql, xl⟩ := q.log
  refine ⟨x, a, b, c, ?_, ?_, h3, ?_⟩
  · rw [el, lastEvaluated_quiet ql, h1]
  · rw [el, lastResult_quiet ql, h2]
  · rw [el, sinceEvaluation_quiet ql]
    rcases xl with xl | ⟨ev, hev, hr⟩
    · rcases h4 with h4 | ⟨ev, hev, hr⟩
      · exact Or.inl (xl.trans h4)
      · exact Or.inr ⟨ev, List.mem_append.2 (Or.inr hev), hr⟩
    · exact Or.inr ⟨ev, List.mem_append.2 (Or.inl hev), hr⟩

def Ev.isVacuum : Ev X V → Bool
  | .vac _ _ _ => true
  | .interval _ => true
  | _ => false

def Ev.isInterval : Ev X V → Bool
  | .interval _ => true
  | _ => false

theorem isVacuum_of_isInterval {a : Ev X V} (h : Ev.isInterval a = true) : Ev.isVacuum a = true := by
  cases a <;> simp_all [Ev.isInterval, Ev.isVacuum]

theorem pending_interval {J t : List (Ev X V)} (h : ∀ a ∈ J, Ev.isInterval a = true) :
    softRestartPending (J ++ t) = softRestartPending t := by
  induction J with
  | nil => rfl
  | cons a J ih =>
    have ha := h a (List.mem_cons_self ..)
    have hi := ih (fun b hb => h b (List.mem_cons_of_mem _ hb))
    cases a <;> simp_all [Ev.isInterval, softRestartPending]

/-- the free-boundary block: the events it adds, and whether a soft restart is requested -/
theorem vacuumBlock_ok (e : Env X V) (p : Phys) (s u : St X V) (need : Bool)
    (h : vacuumBlock e p s = .ok u need) :
    u.x = s.x ∧ u.status = s.status ∧ u.liter = s.liter ∧ u.iter2 = s.iter2 ∧
    u.ijacob = s.ijacob ∧
    (∃ L, u.log = L ++ s.log ∧ ∀ a ∈ L, Ev.isVacuum a = true) ∧
    ((softRestartPending s.log = false → softRestartPending u.log = false) ∨
      (need = true ∧ u.restart = .badJacobian ∧ u.iter2 > 1)) := by
  have key : ∀ s : St X V,
      (vacuumInterval (vacuumSchedule s)).x = s.x ∧
      (vacuumInterval (vacuumSchedule s)).status = s.status ∧
      (vacuumInterval (vacuumSchedule s)).liter = s.liter ∧
      (vacuumInterval (vacuumSchedule s)).iter2 = s.iter2 ∧
      (vacuumInterval (vacuumSchedule s)).ijacob = s.ijacob ∧
      ∃ J, (∀ a ∈ J, Ev.isInterval a = true) ∧
      ((vacuumInterval (vacuumSchedule s)).log = J ++ s.log ∧
          (vacuumInterval (vacuumSchedule s)).vac = s.vac ∨
        s.vac ≠ .active ∧ (vacuumInterval (vacuumSchedule s)).vac = s.vac.succ ∧
          ∃ d, (vacuumInterval (vacuumSchedule s)).log = J ++ .vac s.vac s.vac.succ d :: s.log) := by
    intro s
    unfold vacuumInterval vacuumSchedule St.emit
    dsimp only
    by_cases hc : s.vac ≠ .active ∧ (D.lt (D.add s.fsqr s.fsqz) (.fin (1 / 1000))) = true
    · rw [if_pos hc]
      dsimp only
      rw [if_pos rfl]
      exact ⟨rfl, rfl, rfl, rfl, rfl, [_], by simp [Ev.isInterval], Or.inr ⟨hc.1, rfl, _, rfl⟩⟩
    · rw [if_neg hc]
      dsimp only
      split
      · exact ⟨rfl, rfl, rfl, rfl, rfl, [_], by simp [Ev.isInterval], Or.inl ⟨rfl, rfl⟩⟩
      · exact ⟨rfl, rfl, rfl, rfl, rfl, [], by simp, Or.inl ⟨rfl, rfl⟩⟩
  have key2 : ∀ t : St X V,
      (vacuumSolved t).x = t.x ∧ (vacuumSolved t).status = t.status ∧
      (vacuumSolved t).liter = t.liter ∧ (vacuumSolved t).iter2 = t.iter2 ∧
      (vacuumSolved t).ijacob = t.ijacob ∧
      ((vacuumSolved t).log = t.log ∧ (vacuumSolved t).vac = t.vac ∨
        (vacuumSolved t).vac = .initialized ∧ t.vac = .initializing ∧
          ∃ d, (vacuumSolved t).log = .vac .initializing .initialized d :: t.log) := by
    intro t
    unfold vacuumSolved St.emit
    split
    · exact ⟨rfl, rfl, rfl, rfl, rfl, Or.inr ⟨rfl, ‹_›, _, rfl⟩⟩
    · exact ⟨rfl, rfl, rfl, rfl, rfl, Or.inl ⟨rfl, rfl⟩⟩
  unfold vacuumBlock at h
  split at h
  · rename_i hg
    split at h
    · simp at h
    · dsimp only at h
      obtain ⟨a1, a2, a3, a4, a5, J, hJ, a6⟩ := key s
      have hJ' : ∀ a ∈ J, Ev.isVacuum a = true := fun a ha => isVacuum_of_isInterval (hJ a ha)
      generalize vacuumInterval (vacuumSchedule s) = t at *
      split at h
      · rename_i hoff
        obtain ⟨b1, b2, b3, b4, b5, b6⟩ := key2 t
        generalize vacuumSolved t = w at *
        have hL : ∃ L, w.log = L ++ s.log ∧ ∀ a ∈ L, Ev.isVacuum a = true := by
          rcases a6 with ⟨l1, _⟩ | ⟨_, _, d, l1⟩ <;> rcases b6 with ⟨l2, _⟩ | ⟨_, _, d', l2⟩
          · exact ⟨J, by rw [l2, l1], hJ'⟩
          · exact ⟨_ :: J, by rw [l2, l1]; rfl, by simpa [Ev.isVacuum] using hJ'⟩
          · exact ⟨J ++ [_], by rw [l2, l1, List.append_assoc]; rfl, by
              intro a ha; simp only [List.mem_append, List.mem_singleton] at ha
              rcases ha with ha | rfl
              · exact hJ' a ha
              · rfl⟩
          · exact ⟨_ :: J ++ [_], by rw [l2, l1]; simp only [List.cons_append, List.append_assoc]; rfl, by
              intro a ha; simp only [List.cons_append, List.mem_cons, List.mem_append, List.mem_singleton] at ha
              rcases ha with rfl | ha | ha
              · rfl
              · exact hJ' a ha
              · rcases ha with rfl | ha
                · rfl
                · simp at ha⟩
        have hP : (softRestartPending s.log = false → softRestartPending w.log = false) ∨
            (w.vac = .initialized ∧ s.vac ≠ .initialized) := by
          rcases b6 with ⟨l2, v2⟩ | ⟨v2, v3, d', l2⟩
          · rcases a6 with ⟨l1, v1⟩ | ⟨hn, v1, d, l1⟩
            · left; rw [l2, l1, pending_interval hJ]; exact id
            · rw [l2, l1, v2, v1, pending_interval hJ]
              cases hs : s.vac <;> simp_all [VacState.succ, softRestartPending]
          · right
            refine ⟨v2, ?_⟩
            rcases a6 with ⟨l1, v1⟩ | ⟨hn, v1, d, l1⟩
            · rw [v1] at v3; rw [v3]; simp
            · intro hs; rw [hs] at v1; rw [v1] at v3; simp [VacState.succ] at v3
        split at h
        · simp at h
        · split at h
          · rename_i hw
            injection h with hu hneed
            subst hu
            refine ⟨b1.trans a1, b2.trans a2, b3.trans a3, b4.trans a4, b5.trans a5, hL, ?_⟩
            rcases hP with hP | ⟨_, hni⟩
            · exact Or.inl hP
            · right
              refine ⟨hneed.symm, rfl, ?_⟩
              have : w.iter2 = s.iter2 := b4.trans a4
              rcases hg.2 with hg | hg
              · change w.iter2 > 1
                omega
              · exact absurd hg hni
          · rename_i hw
            injection h with hu hneed
            subst hu
            refine ⟨b1.trans a1, b2.trans a2, b3.trans a3, b4.trans a4, b5.trans a5, hL, ?_⟩
            rcases hP with hP | ⟨hP, _⟩
            · exact Or.inl hP
            · exact absurd hP hw
      · rename_i hoff
        simp only [ne_eq, not_not] at hoff
        injection h with hu hneed
        subst hu
        refine ⟨a1, a2, a3, a4, a5, ?_, ?_⟩
        · rcases a6 with ⟨l1, _⟩ | ⟨_, _, d, l1⟩
          · exact ⟨J, l1, hJ'⟩
          · exact ⟨J ++ [_], by rw [l1, List.append_assoc]; rfl, by
              intro a ha; simp only [List.mem_append, List.mem_singleton] at ha
              rcases ha with ha | rfl
              · exact hJ' a ha
              · rfl⟩
        · left
          rcases a6 with ⟨l1, _⟩ | ⟨_, v1, d, l1⟩
          · rw [l1, pending_interval hJ]; exact id
          · rw [hoff] at v1
            cases hs : s.vac <;> simp [hs, VacState.succ] at v1
  · injection h with hu hneed
    subst hu
    exact ⟨rfl, rfl, rfl, rfl, rfl, ⟨[], rfl, by simp⟩, Or.inl id⟩

/-- log effect of vacuum events -/
theorem vacEvents {L t : List (Ev X V)} (h : ∀ a ∈ L, Ev.isVacuum a = true) :
    lastResult (L ++ t) = lastResult t ∧ lastEvaluated (L ++ t) = lastEvaluated t ∧
    sinceEvaluation (L ++ t) = L ++ sinceEvaluation t ∧
    evaluationsBeyond75 (L ++ t) = evaluationsBeyond75 t ∧
    (Ev.giveUp ∈ L ++ t ↔ Ev.giveUp ∈ t) ∧ (All SoftOk t → All SoftOk (L ++ t)) := by
  induction L with
  | nil => exact ⟨rfl, rfl, rfl, rfl, Iff.rfl, id⟩
  | cons a L ih =>
    obtain ⟨i1, i2, i3, i4, i5, i6⟩ := ih (fun b hb => h b (List.mem_cons_of_mem _ hb))
    have ha := h a (List.mem_cons_self ..)
    cases a <;> simp only [Ev.isVacuum, Bool.false_eq_true] at ha
    all_goals
      refine ⟨i1, i2, ?_, i4, ?_, fun ht => ⟨trivial, i6 ht⟩⟩
      · simp [sinceEvaluation, i3]
      · simp only [List.cons_append, List.mem_cons, reduceCtorEq, false_or, i5]

/-- what `update` leaves when it does not fail -/
theorem update_ok (e : Env X V) (s t : St X V) (need : Bool) (h : update e s = .ok t need) :
    (t = evalBad (beginUpdate e s) ∧ need = false) ∨
    (∃ u, vacuumBlock e (e.phys s.evals) (beginUpdate e s) = .ok u need ∧
      t = hugeForces (setResiduals (e.phys s.evals) u)) := by
  unfold update at h
  dsimp only at h
  split at h
  · injection h with h1 h2
    exact Or.inl ⟨h1.symm, h2.symm⟩
  · split at h
    · simp at h
    · split at h
      · rename_i u n hu
        unfold finishUpdate at h
        dsimp only at h
        split at h
        · simp at h
        · injection h with h1 h2
          subst h2
          exact Or.inr ⟨u, hu, h1.symm⟩
      · simp at h
      · simp at h

/-- facts at the head of the iteration loop -/
structure Head (e : Env X V) (s : St X V) : Prop where
  cnt : CntInv s
  q : s.iter2 = 1 ∨ ¬ Conv e s
  beyond : evaluationsBeyond75 s.log = 0
  noGive : Ev.giveUp ∉ s.log
  pend : softRestartPending s.log = false
  all : All SoftOk s.log

/-- facts after `Evolve` -/
structure Evolved (e : Env X V) (s s' : St X V) : Prop where
  cnt : CntInv s'
  succ : s'.status = .success → Succ e s' ∧ s'.liter = false
  norm : s'.status = .normal → s'.liter = true ∧ ¬ Conv e s'
  bad : s'.status = .badJacobian → s'.liter = true ∧ (s'.iter2 = 1 ∨ ¬ Conv e s')
  st : s'.status = .success ∨ s'.status = .normal ∨ s'.status = .badJacobian
  beyond : evaluationsBeyond75 s'.log = if 75 ≤ s.ijacob then 1 else 0
  noGive : Ev.giveUp ∉ s'.log
  pend : softRestartPending s'.log = false
  all : All SoftOk s'.log
  mono : s.ijacob ≤ s'.ijacob

/-- facts about the state right after the forward model -/
structure Modelled (e : Env X V) (s s' : St X V) : Prop where
  status : s'.status = s.status
  liter : s'.liter = s.liter
  conv : Conv e s' → (s'.iter2 = 1 ∧ s'.restart = .badJacobian) ∨
    ∃ x a b c, lastEvaluated s'.log = some x ∧ lastResult s'.log = some (.residuals a b c) ∧
      s'.fsqr = a ∧ s'.fsqz = b ∧ s'.fsql = c ∧
      (s'.x = x ∨ ∃ ev ∈ sinceEvaluation s'.log, Ev.isRestore ev = true)
  beyond : evaluationsBeyond75 s'.log = if 75 ≤ s.ijacob then 1 else 0
  noGive : Ev.giveUp ∉ s'.log
  pend : softRestartPending s'.log = false
  all : All SoftOk s'.log

theorem ufm_modelled (e : Env X V) (s s' : St X V) (n : Bool) (hh : Head e s)
    (h : updateForwardModel e s = .ok s' n) : Modelled e s s' := by
  -- the evaluation event
  have hbeg : (beginUpdate e s).log = .evaluate (e.mask s.x) :: s.log := rfl
  have hb75 : evaluationsBeyond75 (beginUpdate e s).log = if 75 ≤ s.ijacob then 1 else 0 := by
    rw [hbeg]
    simp only [evaluationsBeyond75, hh.beyond, zero_add, hh.cnt.val]
  have hbg : Ev.giveUp ∉ (beginUpdate e s).log := by
    rw [hbeg]; simp [hh.noGive]
  have hbp : softRestartPending (beginUpdate e s).log = false := by
    rw [hbeg]; exact hh.pend
  have hba : All SoftOk (beginUpdate e s).log := by
    rw [hbeg]; exact ⟨trivial, hh.all⟩
  have hu : ∀ t need, update e s = .ok t need →
      (t.status = s.status ∧ t.liter = s.liter ∧
      (Conv e t → (t.iter2 = 1 ∧ t.restart = .badJacobian ∧ need = false) ∨
        ∃ x a b c, lastEvaluated t.log = some x ∧ lastResult t.log = some (.residuals a b c) ∧
        t.fsqr = a ∧ t.fsqz = b ∧ t.fsql = c ∧ t.x = x) ∧
      evaluationsBeyond75 t.log = (if 75 ≤ s.ijacob then 1 else 0) ∧
      Ev.giveUp ∉ t.log ∧ All SoftOk t.log ∧
      (softRestartPending t.log = false ∨ (need = true ∧ t.restart = .badJacobian))) := by
    intro t need ht
    rcases update_ok e s t need ht with ⟨rfl, rfl⟩ | ⟨u, hu, rfl⟩
    · have hl : (evalBad (beginUpdate e s)).log = .result .badJacobian :: (beginUpdate e s).log :=
        rfl
      refine ⟨rfl, rfl, ?_, ?_, ?_, ?_, ?_⟩
      · intro hc
        left
        refine ⟨?_, rfl, rfl⟩
        rcases hh.q with hq | hq
        · exact hq
        · exact absurd hc hq
      · rw [hl]; exact hb75
      · rw [hl]; simp only [List.mem_cons, reduceCtorEq, false_or]; exact hbg
      · rw [hl]; exact ⟨trivial, hba⟩
      · left; rw [hl]; exact hbp
    · obtain ⟨b1, b2, b3, b4, b5, ⟨L, bL, bq⟩, b7⟩ := vacuumBlock_ok _ _ _ _ _ hu
      set p := e.phys s.evals with hp
      have hhf : ∀ w : St X V, (hugeForces w).log = w.log ∧ (hugeForces w).x = w.x ∧
          (hugeForces w).status = w.status ∧ (hugeForces w).liter = w.liter ∧
          (hugeForces w).fsqr = w.fsqr ∧ (hugeForces w).fsqz = w.fsqz ∧
          (hugeForces w).fsql = w.fsql ∧ (hugeForces w).iter2 = w.iter2 ∧
          (w.iter2 > 1 → (hugeForces w).restart = w.restart) := by
        intro w
        unfold hugeForces
        split
        · rename_i hw
          refine ⟨rfl, rfl, rfl, rfl, rfl, rfl, rfl, rfl, fun h => ?_⟩
          have := hw.1; omega
        · exact ⟨rfl, rfl, rfl, rfl, rfl, rfl, rfl, rfl, fun _ => rfl⟩
      obtain ⟨c1, c2, c3, c4, c5, c6, c7, c8, c9⟩ := hhf (setResiduals p u)
      obtain ⟨v1, v2, v3, v4, v5, v6⟩ := vacEvents (t := (beginUpdate e s).log) bq
      have hl : (setResiduals p u).log =
          .result (.residuals p.fsqr p.fsqz p.fsql) :: (L ++ (beginUpdate e s).log) := by
        rw [← bL]; rfl
      refine ⟨c3.trans b2, c4.trans b3, ?_, ?_, ?_, ?_, ?_⟩
      · intro _
        right
        refine ⟨e.mask s.x, p.fsqr, p.fsqz, p.fsql, ?_, ?_, c5, c6, c7, ?_⟩
        · rw [c1, hl]; simp only [lastEvaluated]; rw [v2, hbeg]; rfl
        · rw [c1, hl]; simp only [lastResult]
        · rw [c2]; exact b1
      · rw [c1, hl]; simp only [evaluationsBeyond75]; rw [v4]; exact hb75
      · rw [c1, hl]; simp only [List.mem_cons, reduceCtorEq, false_or]; rw [v5]; exact hbg
      · rw [c1, hl]; exact ⟨trivial, v6 hba⟩
      · rw [c1, hl]
        simp only [softRestartPending]
        rw [← bL]
        rcases b7 with b7 | ⟨b7, b8, b9⟩
        · exact Or.inl (b7 hbp)
        · exact Or.inr ⟨b7, (c9 b9).trans b8⟩
  unfold updateForwardModel at h
  split at h
  · rename_i t ht
    injection h with h1 h2
    subst h1
    obtain ⟨d1, d2, d3, d4, d5, d6, d7⟩ := hu t true ht
    have q := quiet_soft e t
    obtain ⟨L, el, ql, xl⟩ := q.log
    refine ⟨q.status.trans d1, ?_, ?_, ?_, ?_, ?_, ?_⟩
    · have : (softRestart e t).liter = t.liter := by
        unfold softRestart rollbackJacobian rollbackProgress saveState St.emit
        split <;> rfl
      exact this.trans d2
    · intro hc
      have hct : Conv e t := by
        unfold Conv at hc ⊢
        rw [q.fsqr, q.fsqz, q.fsql] at hc
        exact hc
      rcases d3 hct with ⟨_, _, hf⟩ | ⟨x, a, b, c, f1, f2, f3, f4, f5, f6⟩
      · simp at hf
      · right
        refine ⟨x, a, b, c, ?_, ?_, q.fsqr.trans f3, q.fsqz.trans f4, q.fsql.trans f5, ?_⟩
        · rw [el, lastEvaluated_quiet ql, f1]
        · rw [el, lastResult_quiet ql, f2]
        · rw [el, sinceEvaluation_quiet ql]
          rcases xl with xl | ⟨ev, hev, hr⟩
          · exact Or.inl (xl.trans f6)
          · exact Or.inr ⟨ev, List.mem_append.2 (Or.inl hev), hr⟩
    · rw [el, beyond75_quiet ql, d4]
    · rw [el, giveUp_quiet ql]; exact d5
    · rcases d7 with d7 | ⟨_, d7⟩
      · rw [el]; exact pending_quiet ql d7
      · unfold softRestart
        rw [d7]
        rfl
    · rw [el]; exact all_quiet ql d6
  · rename_i hne
    obtain ⟨d1, d2, d3, d4, d5, d6, d7⟩ := hu s' n h
    have hn : n = false := by
      cases n
      · rfl
      · exact absurd h (hne s')
    subst hn
    refine ⟨d1, d2, ?_, d4, d5, ?_, d6⟩
    · intro hc
      rcases d3 hc with ⟨f1, f2, _⟩ | ⟨x, a, b, c, f1, f2, f3, f4, f5, f6⟩
      · exact Or.inl ⟨f1, f2⟩
      · exact Or.inr ⟨x, a, b, c, f1, f2, f3, f4, f5, Or.inl f6⟩
    · rcases d7 with d7 | ⟨d7, _⟩
      · exact d7
      · simp at d7

theorem isFinite_iff {d : D} : d.isFinite = true ↔ ∃ q, d = .fin q := by
  cases d <;> simp [D.isFinite]

theorem evolve_evolved (e : Env X V) (s s' : St X V) (n : Bool) (hh : Head e s)
    (hst : s.status = .normal) (hl : s.liter = true) (h : evolve e s = .ok s' n) :
    Evolved e s s' := by
  have hreach := evolve_sat e s
  rw [h] at hreach
  have hcnt := hreach.1.inv (I := CntInv) (prim_cnt e) hh.cnt
  have hmono := hreach.1.inv (I := fun u => s.ijacob ≤ u.ijacob ∧ 0 ≤ u.ijacob)
          (fun a b hp => prim_ijacob e s.ijacob a b hp) ⟨le_refl _, hh.cnt.nonneg⟩
  unfold evolve at h
  dsimp only at h
  have hh' : Head e { s with restart := .noRestart } :=
    ⟨⟨hh.cnt.val, hh.cnt.nonneg, hh.cnt.axis, hh.cnt.r25, hh.cnt.r50, hh.cnt.all⟩,
      hh.q, hh.beyond, hh.noGive, hh.pend, hh.all⟩
  split at h
  · rename_i t m ht
    have hm := ufm_modelled e _ t m hh' ht
    have hts : t.status = .normal := hm.status.trans hst
    have htl : t.liter = true := hm.liter.trans hl
    by_cases c1 : (t.iter2 = 1 ∧ t.restart = .badJacobian) ∨
      ¬ (t.fsqr.isFinite = true ∧ t.fsqz.isFinite = true ∧ t.fsql.isFinite = true)
    · have hc : convergence e t = { t with status := .badJacobian } := by
        unfold convergence; rw [if_pos c1]
      rw [hc] at h
      simp only [ne_eq, reduceCtorEq, not_false_eq_true, true_or, if_true] at h
      injection h with h1 _
      subst h1
      refine ⟨hcnt, by simp, by simp, fun _ => ⟨htl, ?_⟩, by simp, hm.beyond, hm.noGive, hm.pend,
        hm.all, hmono.1⟩
      rcases c1 with c1 | c1
      · exact Or.inl c1.1
      · right; intro hcv; exact c1 hcv.1
    · by_cases c2 : t.fsqr.le e.ftol = true ∧ t.fsqz.le e.ftol = true ∧ t.fsql.le e.ftol = true
      · have hc : convergence e t = { t with liter := false, status := .success } := by
          unfold convergence; rw [if_neg c1, if_pos c2]
        rw [hc] at h
        simp only [ne_eq, reduceCtorEq, not_false_eq_true, true_or, if_true] at h
        injection h with h1 _
        subst h1
        refine ⟨hcnt, fun _ => ⟨?_, rfl⟩, by simp, by simp, by simp, hm.beyond, hm.noGive, hm.pend,
          hm.all, hmono.1⟩
        push Not at c1
        rcases hm.conv ⟨c1.2, c2⟩ with hx | ⟨x, a, b, c, f1, f2, f3, f4, f5, f6⟩
        · exact absurd hx.2 (c1.1 hx.1)
        · refine ⟨x, a, b, c, f1, f2, ?_, f6⟩
          subst f3; subst f4; subst f5
          exact ⟨isFinite_iff.1 c1.2.1, isFinite_iff.1 c1.2.2.1, isFinite_iff.1 c1.2.2.2,
            c2.1, c2.2.1, c2.2.2⟩
      · have hc : convergence e t = t := by
          unfold convergence; rw [if_neg c1, if_neg c2]
        rw [hc, hts, htl] at h
        simp only [ne_eq, not_true_eq_false, or_self, if_false] at h
        injection h with h1 _
        subst h1
        have hlog : (timeStep e s.delt0r t).log = .advance s.delt0r
          (timeStep e s.delt0r t).x (timeStep e s.delt0r t).v :: t.log := rfl
        refine ⟨hcnt, ?_, fun _ => ⟨htl, fun hcv => c2 hcv.2⟩, ?_, ?_, ?_, ?_, ?_, ?_, hmono.1⟩
        · intro hs; have : t.status = .success := hs; rw [hts] at this; simp at this
        · intro hs; have : t.status = .badJacobian := hs; rw [hts] at this; simp at this
        · right; left; exact hts
        · rw [hlog]; exact hm.beyond
        · rw [hlog]; simp only [List.mem_cons, reduceCtorEq, false_or]; exact hm.noGive
        · rw [hlog]; exact hm.pend
        · rw [hlog]; exact ⟨hm.pend, hm.all⟩
  · rename_i hne
    exact absurd h (hne s' n)

/-- what holds when the stage stops -/
structure Final (e : Env X V) (s : St X V) : Prop where
  succ : s.status = .success → Succ e s
  beyond : evaluationsBeyond75 s.log ≤ 1
  high : evaluationsBeyond75 s.log ≠ 0 → s.status ≠ .success
  give : Ev.giveUp ∈ s.log → s.status ≠ .success
  all : All SoftOk s.log

theorem vacuumBlock_log (e : Env X V) (p : Phys) (s : St X V) :
    (vacuumBlock e p s).Sat (fun u => u.status = s.status ∧
      ∃ L, u.log = L ++ s.log ∧ ∀ a ∈ L, Ev.isVacuum a = true) := by
  have k1 : (vacuumInterval (vacuumSchedule s)).status = s.status ∧
      ∃ L, (vacuumInterval (vacuumSchedule s)).log = L ++ s.log ∧
        ∀ a ∈ L, Ev.isVacuum a = true := by
    unfold vacuumInterval vacuumSchedule St.emit
    dsimp only
    constructor
    · split <;> split <;> rfl
    · split <;> split
      · exact ⟨[_, _], rfl, by simp [Ev.isVacuum]⟩
      · exact ⟨[_], rfl, by simp [Ev.isVacuum]⟩
      · exact ⟨[_], rfl, by simp [Ev.isVacuum]⟩
      · exact ⟨[], rfl, by simp⟩
  have k2 : ∀ t : St X V, (vacuumSolved t).status = t.status ∧
      ∃ L, (vacuumSolved t).log = L ++ t.log ∧ ∀ a ∈ L, Ev.isVacuum a = true := by
    intro t
    unfold vacuumSolved St.emit
    split
    · exact ⟨rfl, [_], rfl, by simp [Ev.isVacuum]⟩
    · exact ⟨rfl, [], rfl, by simp⟩
  unfold vacuumBlock
  split
  · split
    · trivial
    · dsimp only
      generalize vacuumInterval (vacuumSchedule s) = t at *
      obtain ⟨s1, L1, e1, q1⟩ := k1
      obtain ⟨s2, L2, e2, q2⟩ := k2 t
      have hall : (vacuumSolved t).status = s.status ∧
          ∃ L, (vacuumSolved t).log = L ++ s.log ∧ ∀ a ∈ L, Ev.isVacuum a = true := by
        refine ⟨s2.trans s1, L2 ++ L1, by rw [e2, e1, List.append_assoc], ?_⟩
        intro a ha
        rcases List.mem_append.1 ha with ha | ha
        · exact q2 a ha
        · exact q1 a ha
      split
      · split
        · exact hall
        · split
          · exact hall
          · exact hall
      · exact ⟨s1, L1, e1, q1⟩
  · exact ⟨rfl, [], rfl, by simp⟩

theorem evolve_err (e : Env X V) (s s' : St X V) (r : Bool) (hh : Head e s)
    (h : evolve e s = .err s' r) :
    s'.status = s.status ∧ evaluationsBeyond75 s'.log ≤ 1 ∧ All SoftOk s'.log := by
  have hh' : ({ s with restart := .noRestart } : St X V).log = s.log := rfl
  unfold evolve at h
  dsimp only at h
  split at h
  · split at h <;> simp at h
  · rename_i hne
    unfold updateForwardModel at h
    split at h
    · simp at h
    · unfold update at h
      dsimp only at h
      set b := beginUpdate e { s with restart := .noRestart } with hb
      have hbl : b.log = .evaluate (e.mask s.x) :: s.log := rfl
      have hbs : b.status = s.status := rfl
      have hb75 : evaluationsBeyond75 b.log ≤ 1 := by
        rw [hbl]; simp only [evaluationsBeyond75, hh.beyond]; split <;> omega
      have hba : All SoftOk b.log := by rw [hbl]; exact ⟨trivial, hh.all⟩
      split at h
      · simp at h
      · split at h
        · injection h with h1 _
          subst h1
          exact ⟨hbs, hb75, trivial, hba⟩
        · have hv := vacuumBlock_log e (e.phys s.evals) b
          split at h
          · rename_i u n hu
            rw [hu] at hv
            obtain ⟨v1, L, v2, v3⟩ := hv
            obtain ⟨_, _, _, w4, _, w6⟩ := vacEvents (t := b.log) v3
            unfold finishUpdate at h
            dsimp only at h
            split at h
            · injection h with h1 _
              subst h1
              refine ⟨v1.trans hbs, ?_, ?_⟩
              · change evaluationsBeyond75 u.log ≤ 1
                rw [v2, w4]; exact hb75
              · refine ⟨trivial, ?_⟩
                change All SoftOk u.log
                rw [v2]; exact w6 hba
            · simp at h
          · rename_i u n hu
            rw [hu] at hv
            obtain ⟨v1, L, v2, v3⟩ := hv
            obtain ⟨_, _, _, w4, _, w6⟩ := vacEvents (t := b.log) v3
            injection h with h1 _
            subst h1
            refine ⟨v1.trans hbs, ?_, ?_⟩
            · change evaluationsBeyond75 u.log ≤ 1
              rw [v2, w4]; exact hb75
            · refine ⟨trivial, ?_⟩
              change All SoftOk u.log
              rw [v2]; exact w6 hba
          · simp at h

theorem stepReset_quiet (e : Env X V) (s : St X V) : Quiet s (stepReset e s) := by
  have q1 : Quiet s { s with restart := .badJacobian } :=
    quiet_of_eq rfl rfl rfl rfl id rfl rfl
  refine q1.trans ((quiet_restart e _).trans ?_)
  unfold stepReset
  refine ⟨rfl, rfl, rfl, rfl, id, [_], rfl, ?_, Or.inl rfl⟩
  intro a ha; simp at ha; subst ha; rfl

theorem axisRetry_quiet (s : St X V) : Quiet s (axisRetry s) := by
  refine ⟨rfl, rfl, rfl, rfl, id, [_, _], rfl, ?_, Or.inl rfl⟩
  intro a ha; simp at ha; rcases ha with rfl | rfl <;> rfl

theorem Conv.quiet {e : Env X V} {s s' : St X V} (q : Quiet s s') (h : Conv e s') : Conv e s := by
  unfold Conv at h ⊢
  rw [q.fsqr, q.fsqz, q.fsql] at h
  exact h

/-- One pass of the loop preserves the head facts or ends in a final state. -/
theorem iterate_head (e : Env X V) (fi bad : Int) (s : St X V) (hh : Head e s)
    (hi : s.iter2 = fi - bad) (hst : s.status = .normal) (hl : s.liter = true) :
    match iterate e fi bad s with
    | .next s' _ => Final e s' ∧ CntInv s' ∧
        (s'.liter = true → Head e s' ∧ s'.status = .normal)
    | .stop r s' => (r ≠ .ub → Final e s') ∧ (r = .mustRetry → s'.liter = true → Head e s') := by
  have hspec := iterate_spec e fi bad s hi
  unfold iterate at *
  match hm : evolve e s with
  | .ub => simp
  | .err s' r =>
    obtain ⟨h1, h2, h3⟩ := evolve_err e s s' r hh hm
    have h4 : s'.status = .normal := h1.trans hst
    simp only [reduceCtorEq, ne_eq, not_false_eq_true, forall_const, false_implies, and_true]
    exact ⟨by simp [h4], h2, by simp [h4], by simp [h4], h3⟩
  | .ok t n =>
    have hev := evolve_evolved e s t n hh hst hl hm
    rw [hm] at hspec
    dsimp only at hspec ⊢
    have hb1 : evaluationsBeyond75 t.log ≤ 1 := by rw [hev.beyond]; split <;> omega
    by_cases hc : t.ijacob = 0 ∧
        (t.status = .badJacobian ∨ t.restart = .hugeInitialForces) ∧ e.ns ≥ 3
    · -- axis re-guess
      rw [if_pos hc]
      have hlow : evaluationsBeyond75 t.log = 0 := by
        rw [hev.beyond, if_neg]; have := hev.mono; omega
      have q := axisRetry_quiet t
      obtain ⟨L, el, ql, xl⟩ := q.log
      constructor
      · intro _
        refine ⟨fun hs => ((hev.succ (q.status.symm.trans hs)).1).quiet q, ?_, ?_, ?_, ?_⟩
        · rw [el, beyond75_quiet ql]; omega
        · rw [el, beyond75_quiet ql]; exact fun h => absurd hlow h
        · rw [el, giveUp_quiet ql]; exact fun h => absurd h hev.noGive
        · rw [el]; exact all_quiet ql hev.all
      · intro _ hlit
        have hcq : CntInv (axisRetry t) := prim_cnt e _ _ (Prim.axis t hc.1) hev.cnt
        refine ⟨hcq, ?_, ?_, ?_, ?_, ?_⟩
        · have htl : t.liter = true := q.liter hlit
          rcases hev.st with h | h | h
          · have := (hev.succ h).2; rw [htl] at this; simp at this
          · exact Or.inr (fun hcv => (hev.norm h).2 (hcv.quiet q))
          · rcases (hev.bad h).2 with h' | h'
            · exact Or.inl h'
            · exact Or.inr (fun hcv => h' (hcv.quiet q))
        · rw [el, beyond75_quiet ql]; exact hlow
        · rw [el, giveUp_quiet ql]; exact hev.noGive
        · rw [el]; exact pending_quiet ql hev.pend
        · rw [el]; exact all_quiet ql hev.all
    · rw [if_neg hc]
      by_cases hns : t.status ≠ .normal ∧ t.status ≠ .success
      · rw [if_pos hns]
        have hf : Final e t :=
          ⟨fun h => absurd h hns.2, hb1, fun _ => hns.2, fun _ => hns.2, hev.all⟩
        by_cases hk : e.keepGoing = true
        · rw [if_pos hk]; exact ⟨fun _ => hf, by simp⟩
        · rw [if_neg hk]; exact ⟨fun _ => hf, by simp⟩
      · rw [if_neg hns]
        by_cases hj : t.ijacob = 25 ∨ t.ijacob = 50
        · -- time step reset
          rw [if_pos hj]
          have hlow : evaluationsBeyond75 t.log = 0 := by
            rw [hev.beyond, if_neg]; have := hev.mono; omega
          have q := stepReset_quiet e t
          obtain ⟨L, el, ql, xl⟩ := q.log
          constructor
          · intro _
            refine ⟨fun hs => ((hev.succ (q.status.symm.trans hs)).1).quiet q, ?_, ?_, ?_, ?_⟩
            · rw [el, beyond75_quiet ql]; omega
            · rw [el, beyond75_quiet ql]; exact fun h => absurd hlow h
            · rw [el, giveUp_quiet ql]; exact fun h => absurd h hev.noGive
            · rw [el]; exact all_quiet ql hev.all
          · intro _ hlit
            have hcq : CntInv (stepReset e t) := prim_cnt e _ _ (Prim.reset t hj) hev.cnt
            refine ⟨hcq, ?_, ?_, ?_, ?_, ?_⟩
            · have htl : t.liter = true := q.liter hlit
              rcases hev.st with h | h | h
              · have := (hev.succ h).2; rw [htl] at this; simp at this
              · exact Or.inr (fun hcv => (hev.norm h).2 (hcv.quiet q))
              · exact absurd ⟨by rw [h]; simp, by rw [h]; simp⟩ hns
            · rw [el, beyond75_quiet ql]; exact hlow
            · rw [el, giveUp_quiet ql]; exact hev.noGive
            · rw [el]; exact pending_quiet ql hev.pend
            · rw [el]; exact all_quiet ql hev.all
        · -- end of iteration
          rw [if_neg hj]
          have hst2 : t.status = .success ∨ t.status = .normal := by
            rcases hev.st with h | h | h
            · exact Or.inl h
            · exact Or.inr h
            · exact absurd ⟨by rw [h]; simp, by rw [h]; simp⟩ hns
          have hi2 : t.iter2 = fi - bad := by
            have := evolve_sat e s
            rw [hm] at this
            exact this.2.1.trans hi
          obtain ⟨s', bad', hE, hR, -, -, -⟩ := endOfIteration_next e fi bad t hi2
          have hcnt : CntInv s' := hR.inv (I := CntInv) (prim_cnt e) hev.cnt
          have hq : Quiet (giveUpCheck t) s' := by
            unfold endOfIteration at hE
            dsimp only at hE
            injection hE with hE _
            rw [← hE]
            exact (((quiet_best e _ _).trans (quiet_control e _ _)).trans
              (quiet_act e _ _ _)).trans ((quiet_vacOn _).trans
                (quiet_of_eq rfl rfl rfl rfl id rfl rfl))
          obtain ⟨L, el, ql, xl⟩ := hq.log
          rw [hE]
          dsimp only
          refine ⟨?_, hcnt, ?_⟩
          · by_cases h75 : t.ijacob ≥ 75
            · have hg : giveUpCheck t = ({ t with
                  status := .jacobian75, liter := false, log := .giveUp :: t.log } : St X V) := by
                unfold giveUpCheck St.emit; rw [if_pos h75]
              rw [hg] at hq el
              have hns' : s'.status ≠ .success := by rw [hq.status]; simp
              refine ⟨fun h => absurd h hns', ?_, fun _ => hns', fun _ => hns', ?_⟩
              · rw [el, beyond75_quiet ql]; exact hb1
              · rw [el]; exact all_quiet ql ⟨trivial, hev.all⟩
            · have hg : giveUpCheck t = t := by unfold giveUpCheck; rw [if_neg h75]
              rw [hg] at hq el
              have hlow : evaluationsBeyond75 t.log = 0 := by
                rw [hev.beyond, if_neg]; have := hev.mono; omega
              refine ⟨fun hs => ((hev.succ (hq.status.symm.trans hs)).1).quiet hq, ?_, ?_, ?_, ?_⟩
              · rw [el, beyond75_quiet ql]; omega
              · rw [el, beyond75_quiet ql]; exact fun h => absurd hlow h
              · rw [el, giveUp_quiet ql]; exact fun h => absurd h hev.noGive
              · rw [el]; exact all_quiet ql hev.all
          · intro hlit
            have hgl := hq.liter hlit
            have h75 : ¬ t.ijacob ≥ 75 := by
              intro h75
              unfold giveUpCheck St.emit at hgl
              rw [if_pos h75] at hgl
              simp at hgl
            have hg : giveUpCheck t = t := by unfold giveUpCheck; rw [if_neg h75]
            rw [hg] at hq el hgl
            have htn : t.status = .normal := by
              rcases hst2 with h | h
              · have := (hev.succ h).2; rw [hgl] at this; simp at this
              · exact h
            have hlow : evaluationsBeyond75 t.log = 0 := by
              rw [hev.beyond, if_neg]; have := hev.mono; omega
            refine ⟨⟨hcnt, ?_, ?_, ?_, ?_, ?_⟩, hq.status.trans htn⟩
            · exact Or.inr (fun hcv => (hev.norm htn).2 (hcv.quiet hq))
            · rw [el, beyond75_quiet ql]; exact hlow
            · rw [el, giveUp_quiet ql]; exact hev.noGive
            · rw [el]; exact pending_quiet ql hev.pend
            · rw [el]; exact all_quiet ql hev.all

theorem Head.final {e : Env X V} {s : St X V} (h : Head e s) (hs : s.status = .normal) :
    Final e s :=
  ⟨by simp [hs], by rw [h.beyond]; omega, by simp [hs], by simp [hs], h.all⟩

theorem loop_final (e : Env X V) (n : Nat) : ∀ (fi bad : Int) (s : St X V), s.iter2 = fi - bad →
    (s.liter = true → Head e s ∧ s.status = .normal) → Final e s →
    ((loop e n fi bad s).1 ≠ .ub → Final e (loop e n fi bad s).2) ∧
    ((loop e n fi bad s).1 = .mustRetry → (loop e n fi bad s).2.liter = true →
      Head e (loop e n fi bad s).2) := by
  induction n with
  | zero => intro fi bad s _ _ hf; exact ⟨fun _ => hf, by simp [loop]⟩
  | succ n ih =>
    intro fi bad s hi hH hf
    rw [loop]
    split
    · rename_i hl
      obtain ⟨hh, hst⟩ := hH hl
      have hit := iterate_head e fi bad s hh hi hst hl
      have hsp := iterate_spec e fi bad s hi
      match hm : iterate e fi bad s with
      | .next s' bad' =>
        rw [hm] at hit hsp
        dsimp only at hit ⊢
        have hi' : s'.iter2 = fi + 1 - bad' := by
          simp only [reduceCtorEq, false_and, exists_false, false_or] at hsp
          obtain ⟨a, b, h1, _, _, h2, _⟩ := hsp
          injection h1 with h1 h1'
          subst h1; subst h1'; exact h2
        exact ih (fi + 1) bad' s' hi' hit.2.2 hit.1
      | .stop r s' =>
        rw [hm] at hit
        exact hit
    · exact ⟨fun _ => hf, by simp⟩

theorem enterLoop_head (e : Env X V) (s : St X V) (h : Head e s) :
    Head e (enterLoop e s) ∧ (enterLoop e s).status = .normal ∧ (enterLoop e s).liter = true := by
  have hc := (enterLoop_reach e s).inv (I := CntInv) (prim_cnt e) h.cnt
  refine ⟨?_, ?_, ?_⟩
  · unfold enterLoop at *
    dsimp only at *
    split at hc
    · rename_i hr
      rw [if_pos hr]
      refine ⟨hc, h.q, ?_, ?_, ?_, ?_⟩
      · exact h.beyond
      · simp only [saveState, St.emit, List.mem_cons, reduceCtorEq, false_or]; exact h.noGive
      · exact h.pend
      · exact ⟨trivial, trivial, h.all⟩
    · rename_i hr
      rw [if_neg hr]
      exact ⟨hc, h.q, h.beyond, h.noGive, h.pend, h.all⟩
  · rfl
  · rfl

theorem sel_final (e : Env X V) (s : St X V) (h : Head e s) :
    ((solveEquilibriumLoop e s).1 ≠ .ub → Final e (solveEquilibriumLoop e s).2) ∧
    ((solveEquilibriumLoop e s).1 = .mustRetry → (solveEquilibriumLoop e s).2.liter = true →
      Head e (solveEquilibriumLoop e s).2) := by
  obtain ⟨a1, a2, a3⟩ := enterLoop_head e s h
  unfold solveEquilibriumLoop
  exact loop_final e _ _ 0 _ (by omega) (fun _ => ⟨a1, a2⟩) (a1.final a2)

theorem attempts_final (e : Env X V) (n : Nat) : ∀ (r : LoopRet) (s : St X V),
    (r ≠ .ub → Final e s) → (r = .mustRetry → s.liter = true → Head e s) →
    ((attempts e n r s).1 ≠ .ub → Final e (attempts e n r s).2) := by
  induction n with
  | zero => intro r s h _; exact h
  | succ n ih =>
    intro r s h1 h2
    rw [attempts]
    split
    · rename_i hc
      have hh := h2 hc.1 hc.2
      have hh' : Head e { s with tries := s.tries + 1 } :=
        ⟨⟨hh.cnt.val, hh.cnt.nonneg, hh.cnt.axis, hh.cnt.r25, hh.cnt.r50, hh.cnt.all⟩,
          hh.q, hh.beyond, hh.noGive, hh.pend, hh.all⟩
      obtain ⟨b1, b2⟩ := sel_final e _ hh'
      exact ih _ _ b1 b2
    · exact h1

end Verif.Control
