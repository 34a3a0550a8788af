import Verif.PyDriver.Lemmas

/-!
# One pass of the two loops
-/
namespace Verif.PyDriver
open Verif Verif.Control

variable {X V : Type}

/-- the two drivers are in corresponding states -/
structure Rel (e : Env X V) (s : St X V) (p : PSt X V) : Prop where
  obj : Obj s p.m
  fsq : s.fsq = p.fsqPrev
  res0 : s.res0 = p.res0
  res1 : e.parvmec = true → s.res1 = p.res1
  delt0r : s.delt0r = p.delt0r
  ijacob : s.ijacob = p.ijacob
  iter1 : s.iter1 = p.iter1
  damp : s.damp = p.damp
  pos : Pos s
  seeded : (s.res0 = .fin (-1) ∧ (e.parvmec = true → s.res1 = .fin (-1))) ∨
    (isNeg s.res0 = false ∧ (e.parvmec = true → isNeg s.res1 = false))
  first : 1 ≤ s.iter1
  intr : s.interrupted = false

theorem isNeg_stdMin {a b : D} (ha : isNeg a = false) (hb : isNeg b = false) : isNeg (D.stdMin a b) = false := by
  unfold D.stdMin; split <;> assumption

theorem not_minus_one {a : D} (ha : isNeg a = false) : a ≠ .fin (-1) := by
  rintro rfl; simp [isNeg] at ha

/-- a residual that is not above a non-negative bound is not above a hundred times the bound -/
theorem not_blown {a f : D} (ha : isNeg a = false) (h : f.le a = true) : D.lt (D.scale 100 a) f = false := by
  cases a <;> cases f <;> simp_all [D.le, D.lt, D.scale, isNeg]
  linarith

/-- the running minima -/
theorem best_rel {e : Env X V} {s : St X V} {p : PSt X V} (h : Rel e s p) (hf : s.fsq = fsq1 s) {i : Int} (hp : p.iter2 = i) :
    ∃ a b b', bestResiduals e i s = { s with res0 := a, res1 := b } ∧ lower (seed p) = { p with res0 := a, res1 := b' } ∧
      (e.parvmec = true → b = b') ∧ isNeg a = false ∧ (e.parvmec = true → isNeg b = false) ∧ (i = s.iter1 → a = fsq1 s) := by
  obtain ⟨n1, n0⟩ := h.pos
  have hc : (i = s.iter1 ∨ s.res0 = .fin (-1)) ↔ (p.iter2 = p.iter1 ∨ p.res0 = .fin (-1)) := by rw [hp, h.iter1, h.res0]
  have min_self : ∀ d : D, D.stdMin d d = d := fun d => by unfold D.stdMin; split <;> rfl
  by_cases c : i = s.iter1 ∨ s.res0 = .fin (-1)
  · have c1 : e.parvmec = true → (i = s.iter1 ∨ s.res1 = .fin (-1)) := by
      intro hv
      rcases c with c | c
      · exact Or.inl c
      · rcases h.seeded with q | q
        · exact Or.inr (q.2 hv)
        · exact absurd c (not_minus_one q.1)
    refine ⟨fsq1 s, if e.parvmec then fsq0 s else s.res1, fsq0 s, ?_, ?_, ?_, n1, ?_, fun _ => rfl⟩
    · unfold bestResiduals
      dsimp only
      rw [if_pos c]
      have eq : D.add (D.add s.fsqr s.fsqz) s.fsql = fsq0 s := rfl
      rw [hf, eq, min_self]
      by_cases hv : e.parvmec = true
      · rw [if_pos hv, if_pos hv, if_pos (c1 hv), min_self]
      · rw [if_neg hv, if_neg hv]
    · unfold seed
      rw [if_pos (hc.1 c)]
      unfold lower
      dsimp only
      rw [min_self, min_self, h.obj.fsq1, h.obj.fsq0]
    · intro hv; rw [if_pos hv]
    · intro hv; rw [if_pos hv]; exact n0
  · have hs : isNeg s.res0 = false ∧ (e.parvmec = true → isNeg s.res1 = false) := by
      rcases h.seeded with q | q
      · exact absurd (Or.inr q.1) c
      · exact q
    refine ⟨D.stdMin s.res0 (fsq1 s), if e.parvmec then D.stdMin s.res1 (fsq0 s) else s.res1, D.stdMin p.res1 (fsq0 s), ?_, ?_, ?_,
      isNeg_stdMin hs.1 n1, ?_, fun h' => absurd (Or.inl h') c⟩
    · unfold bestResiduals
      dsimp only
      rw [if_neg c]
      have eq : D.add (D.add s.fsqr s.fsqz) s.fsql = fsq0 s := rfl
      rw [hf, eq]
      by_cases hv : e.parvmec = true
      · have c1 : ¬ (i = s.iter1 ∨ s.res1 = .fin (-1)) := by
          rintro (q | q)
          · exact c (Or.inl q)
          · exact not_minus_one (hs.2 hv) q
        rw [if_pos hv, if_pos hv, if_neg c1]
      · rw [if_neg hv, if_neg hv]
    · unfold seed
      rw [if_neg (fun q => c (hc.2 q))]
      unfold lower
      rw [h.obj.fsq1, h.obj.fsq0, h.res0]
    · intro hv; rw [if_pos hv, h.res1 hv]
    · intro hv; rw [if_pos hv]; exact isNeg_stdMin (hs.2 hv) n0

/-- new minima keep the relation -/
theorem Rel.best {e : Env X V} {s : St X V} {p : PSt X V} (h : Rel e s p) {a b b' : D} (h1 : e.parvmec = true → b = b')
    (h2 : isNeg a = false) (h3 : e.parvmec = true → isNeg b = false) :
    Rel e { s with res0 := a, res1 := b } { p with res0 := a, res1 := b' } := by
  obtain ⟨⟨a1, a2, a3, a4, a5, a6, a7, a8, a9, a10, a11⟩, b1, b2, b3, b4, b5, b6, b7, b8, b9, b10, b11⟩ := h
  refine ⟨⟨a1, a2, a3, a4, a5, a6, a7, a8, a9, a10, a11⟩, b1, rfl, h1, b4, b5, b6, b7, b8, Or.inr ⟨h2, h3⟩, b10, b11⟩

/-- checkpoint -/
theorem Rel.save {e : Env X V} {s : St X V} {p : PSt X V} (h : Rel e s p) : Rel e (saveState s) (saveBackup p) := by
  obtain ⟨⟨a1, a2, a3, a4, a5, a6, a7, a8, a9, a10, a11⟩, b1, b2, b3, b4, b5, b6, b7, b8, b9, b10, b11⟩ := h
  refine ⟨⟨a1, a2, a1, a4, a5, a6, a7, a8, a9, a10, ?_⟩, b1, b2, b3, b4, b5, b6, b7, b8, b9, b10, b11⟩
  simp only [saveState, saveBackup, St.emit, actions_cons, a1, a11]

/-- two checkpoints of the same geometry are one -/
theorem Rel.save2 {e : Env X V} {s : St X V} {p : PSt X V} (h : Rel e s p) : Rel e (saveState (saveState s)) (saveBackup p) := by
  obtain ⟨⟨a1, a2, a3, a4, a5, a6, a7, a8, a9, a10, a11⟩, b1, b2, b3, b4, b5, b6, b7, b8, b9, b10, b11⟩ := h
  refine ⟨⟨a1, a2, a1, a4, a5, a6, a7, a8, a9, a10, ?_⟩, b1, b2, b3, b4, b5, b6, b7, b8, b9, b10, b11⟩
  simp only [saveState, saveBackup, St.emit, actions_cons, push_save_twice, a1, a11]

/-- rollback with reduction of the time step -/
theorem Rel.hard {e : Env X V} {s : St X V} {p : PSt X V} (h : Rel e s p) (hr : s.restart = .badJacobian) {i : Int} (hi : p.iter2 = i)
    (h1 : 1 ≤ i) : Rel e { restartIteration e s with iter1 := i } (hard e p) := by
  have e1 : restartIteration e s = { rollbackJacobian e s with delt0r := (rollbackJacobian e s).delt0r * (9 / 10) } := by
    unfold restartIteration; rw [hr]
  rw [e1]
  obtain ⟨⟨a1, a2, a3, a4, a5, a6, a7, a8, a9, a10, a11⟩, b1, b2, b3, b4, b5, b6, b7, b8, b9, b10, b11⟩ := h
  refine ⟨⟨a3, rfl, a3, a4, a5, a6, a7, a8, a9, a10, ?_⟩, b1, b2, b3, ?_, ?_, hi.symm, b7, b8, b9, h1, b11⟩
  · simp only [rollbackJacobian, PyDriver.hard, restoreBackup, St.emit, actions_cons, a3, a11]
    rfl
  · show s.delt0r * (9 / 10) = p.delt0r * (9 / 10)
    rw [b4]
  · show s.ijacob + 1 = p.ijacob + 1
    rw [b5]

theorem Rel.gentle {e : Env X V} {s : St X V} {p : PSt X V} (h : Rel e s p) (hr : s.restart = .badProgress) {i : Int} (hi : p.iter2 = i)
    (h1 : 1 ≤ i) : Rel e { restartIteration e s with iter1 := i } (gentle e p) := by
  have e1 : restartIteration e s = { rollbackProgress e s with delt0r := (rollbackProgress e s).delt0r / (103 / 100) } := by
    unfold restartIteration; rw [hr]
  rw [e1]
  obtain ⟨⟨a1, a2, a3, a4, a5, a6, a7, a8, a9, a10, a11⟩, b1, b2, b3, b4, b5, b6, b7, b8, b9, b10, b11⟩ := h
  refine ⟨⟨a3, rfl, a3, a4, a5, a6, a7, a8, a9, a10, ?_⟩, b1, b2, b3, ?_, b5, hi.symm, b7, b8, b9, h1, b11⟩
  · simp only [rollbackProgress, PyDriver.gentle, restoreBackup, St.emit, actions_cons, a3, a11]
  · show s.delt0r / (103 / 100) = p.delt0r / (103 / 100)
    rw [b4]

/-- fields the drivers do not share do not matter -/
theorem Rel.congr {e : Env X V} {s s' : St X V} {p p' : PSt X V} (h : Rel e s p) (hx : s' = { s with
    iter2 := s'.iter2, restart := s'.restart, status := s'.status, liter := s'.liter, lreset := s'.lreset, vac := s'.vac,
    nvacskip := s'.nvacskip, ivacskip := s'.ivacskip, tries := s'.tries, log := s'.log }) (hl : actions s'.log = actions s.log)
    (hp : p' = { p with
      iter2 := p'.iter2, converged := p'.converged, failed := p'.failed, mustRetry := p'.mustRetry,
      pending := p'.pending, lreset := p'.lreset, retries := p'.retries, nRestarts := p'.nRestarts, nReguesses := p'.nReguesses,
      notes := p'.notes }) : Rel e s' p' := by
  obtain ⟨⟨a1, a2, a3, a4, a5, a6, a7, a8, a9, a10, a11⟩, b1, b2, b3, b4, b5, b6, b7, b8, b9, b10, b11⟩ := h
  rw [hx, hp]
  exact ⟨⟨a1, a2, a3, a4, a5, a6, a7, a8, a9, a10, hl.trans a11⟩, b1, b2, b3, b4, b5, b6, b7, b8, b9, b10, b11⟩

theorem vacuumActivate_rel {e : Env X V} {s : St X V} {p : PSt X V} (h : Rel e s p) (k : Int) :
    Rel e { vacuumActivate s with iter2 := k } p := by
  unfold vacuumActivate
  split
  · exact h.congr rfl rfl rfl
  · exact h.congr rfl rfl rfl

/-! ## time-step control -/

theorem act_eq {e : Env X V} (hi : ∀ n, e.interrupt n = false) (i bad : Int) (s : St X V) : act e i bad s =
    if s.restart ≠ .noRestart then ({ restartIteration e s with iter1 := i }, bad + 1) else (s, bad) := by
  unfold act
  rw [hi]
  simp

theorem restartIteration_misc (e : Env X V) (s : St X V) : (restartIteration e s).status = s.status ∧
    (restartIteration e s).liter = s.liter ∧ (restartIteration e s).lreset = s.lreset := by
  unfold restartIteration
  split <;> exact ⟨rfl, rfl, rfl⟩

theorem restartIteration_save (e : Env X V) {s : St X V} (h : s.restart = .noRestart ∨ s.restart = .hugeInitialForces) :
    restartIteration e s = saveState s := by
  unfold restartIteration
  rcases h with h | h <;> rw [h]

/-- what one decision of the time-step control does in the two drivers -/
structure Ctl (e : Env X V) (s : St X V) (p : PSt X V) (bad : Int) (r : St X V × Int) (q : PSt X V × Int) : Prop where
  rel : Rel e r.1 q.1
  cnt : r.2 = q.2
  le : bad ≤ r.2 ∧ r.2 ≤ bad + 1
  status : r.1.status = s.status
  liter : r.1.liter = s.liter
  restart : r.1.restart = .noRestart ∨ r.1.restart = .hugeInitialForces
  flags : q.1.converged = p.converged ∧ q.1.failed = p.failed ∧ q.1.mustRetry = p.mustRetry ∧ q.1.pending = p.pending ∧
    q.1.lreset = p.lreset
  notes : q.1.notes = p.notes

theorem ctl_hard {e : Env X V} (hI : ∀ n, e.interrupt n = false) {s : St X V} {p : PSt X V} (h : Rel e s p) {i bad : Int}
    (hi : p.iter2 = i) (h1 : 1 ≤ i) : Ctl e s p bad (act e i bad { s with restart := .badJacobian }) (hard e p, bad + 1) := by
  rw [act_eq hI, if_pos (by simp)]
  have h' : Rel e { s with restart := .badJacobian } p := h.congr rfl rfl rfl
  refine ⟨h'.hard rfl hi h1, rfl, ⟨by dsimp only; omega, by dsimp only; omega⟩, ?_, ?_, Or.inl ?_, ⟨rfl, rfl, rfl, rfl, rfl⟩, rfl⟩
  · exact (restartIteration_misc e _).1
  · exact (restartIteration_misc e _).2.1
  · rfl

theorem ctl_gentle {e : Env X V} (hI : ∀ n, e.interrupt n = false) {s : St X V} {p : PSt X V} (h : Rel e s p) {i bad : Int}
    (hi : p.iter2 = i) (h1 : 1 ≤ i) : Ctl e s p bad (act e i bad { s with restart := .badProgress }) (gentle e p, bad + 1) := by
  rw [act_eq hI, if_pos (by simp)]
  have h' : Rel e { s with restart := .badProgress } p := h.congr rfl rfl rfl
  refine ⟨h'.gentle rfl hi h1, rfl, ⟨by dsimp only; omega, by dsimp only; omega⟩, ?_, ?_, Or.inl ?_, ⟨rfl, rfl, rfl, rfl, rfl⟩, rfl⟩
  · exact (restartIteration_misc e _).1
  · exact (restartIteration_misc e _).2.1
  · rfl

theorem ctl_save {e : Env X V} (hI : ∀ n, e.interrupt n = false) {s : St X V} {p : PSt X V} (h : Rel e s p) {i bad : Int}
    (hr : s.restart = .noRestart) : Ctl e s p bad (act e i bad (restartIteration e s)) (saveBackup p, bad) := by
  rw [restartIteration_save e (Or.inl hr), act_eq hI, if_neg (by simpa [saveState, St.emit] using hr)]
  exact ⟨h.save, rfl, ⟨le_refl _, by dsimp only; omega⟩, rfl, rfl, Or.inl hr, ⟨rfl, rfl, rfl, rfl, rfl⟩, rfl⟩

theorem ctl_nothing {e : Env X V} (hI : ∀ n, e.interrupt n = false) {s : St X V} {p : PSt X V} (h : Rel e s p) {i bad : Int}
    (hr : s.restart = .noRestart) : Ctl e s p bad (act e i bad s) (p, bad) := by
  rw [act_eq hI, if_neg (by simpa using hr)]
  exact ⟨h, rfl, ⟨le_refl _, by dsimp only; omega⟩, rfl, rfl, Or.inl hr, ⟨rfl, rfl, rfl, rfl, rfl⟩, rfl⟩

/-- the setting of iteration marker -/
theorem Rel.mark {e : Env X V} {s : St X V} {p : PSt X V} (h : Rel e s p) {i : Int} (h1 : 1 ≤ i) :
    Rel e { s with iter1 := i } { p with iter1 := i } := by
  obtain ⟨⟨a1, a2, a3, a4, a5, a6, a7, a8, a9, a10, a11⟩, b1, b2, b3, b4, b5, b6, b7, b8, b9, b10, b11⟩ := h
  exact ⟨⟨a1, a2, a3, a4, a5, a6, a7, a8, a9, a10, a11⟩, b1, b2, b3, b4, b5, rfl, b7, b8, b9, h1, b11⟩

/-- the time-step control of the two drivers, without a bad Jacobian that they treat differently -/
theorem control_rel {e : Env X V} (hI : ∀ n, e.interrupt n = false) {s : St X V} {p : PSt X V} (h : Rel e s p) (hf : s.fsq = fsq1 s)
    (hr : s.restart = p.m.restart) (hn : s.restart ≠ .badProgress) {i bad : Int} (hi : p.iter2 = i) (h1 : 1 ≤ i)
    (hh : s.restart = .hugeInitialForces → i = 1) (hN : jacobianNotes (styleOf e) p = p) :
    Ctl e s p bad (act e i bad (Control.control e i (bestResiduals e i s))) (control e (styleOf e) p bad) := by
  obtain ⟨a, b, b', e1, e2, n1, n2, n3, n4⟩ := best_rel h hf hi
  have R := h.best n1 n2 n3
  rw [e1]
  have hlift : ∀ r q, Ctl e { s with res0 := a, res1 := b } { p with res0 := a, res1 := b' } bad r q → Ctl e s p bad r q :=
    fun r q c => ⟨c.rel, c.cnt, c.le, c.status, c.liter, c.restart, c.flags, c.notes⟩
  have hF : s.fsq = fsq1 p.m := hf.trans h.obj.fsq1
  have hF0 : D.add (D.add s.fsqr s.fsqz) s.fsql = fsq0 p.m := h.obj.fsq0
  have hS : D.add s.fsqr s.fsqz = D.add p.m.fsqr p.m.fsqz := by rw [h.obj.fsqr, h.obj.fsqz]
  have hI1 : s.iter1 = p.iter1 := h.iter1
  have h11 := h.first
  unfold PyDriver.control
  by_cases hhuge : p.m.restart = .hugeInitialForces
  · -- huge forces after the re-guess: save and count
    rw [if_pos hhuge]
    have i1 := hh (hr.trans hhuge)
    subst i1
    have hsr : s.restart = .hugeInitialForces := hr.trans hhuge
    refine hlift _ _ ?_
    have key : act e 1 bad (Control.control e 1 { s with res0 := a, res1 := b }) =
        ({ saveState { s with res0 := a, res1 := b } with iter1 := 1 }, bad + 1) ∨
        act e 1 bad (Control.control e 1 { s with res0 := a, res1 := b }) =
        ({ saveState (saveState { s with res0 := a, res1 := b }) with iter1 := 1 }, bad + 1) := by
      have hact : ∀ t : St X V, t.restart = .hugeInitialForces → act e 1 bad t = ({ saveState t with iter1 := 1 }, bad + 1) := by
        intro t ht
        rw [act_eq hI, if_pos (by rw [ht]; simp), restartIteration_save e (Or.inr ht)]
      unfold Control.control
      dsimp only
      split
      · split
        · right
          rw [restartIteration_save e (s := { s with res0 := a, res1 := b }) (Or.inr hsr)]
          exact hact _ hsr
        · rw [if_neg (by omega)]
          left; exact hact _ hsr
      · rw [if_neg (by omega), if_neg (by omega), if_neg (by omega)]
        left; exact hact _ hsr
    have hpy : controlHuge p bad = ({ saveBackup { p with res0 := a, res1 := b' } with iter1 := 1 }, bad + 1) := by
      unfold controlHuge
      rw [e2]
      dsimp only [saveBackup]
      rw [hi]
    rw [hpy]
    rcases key with k | k <;> rw [k]
    · exact ⟨R.save.mark (by omega), rfl, ⟨by dsimp only; omega, by dsimp only; omega⟩, rfl, rfl, Or.inr hsr, ⟨rfl, rfl, rfl, rfl, rfl⟩, rfl⟩
    · exact ⟨R.save2.mark (by omega), rfl, ⟨by dsimp only; omega, by dsimp only; omega⟩, rfl, rfl, Or.inr hsr, ⟨rfl, rfl, rfl, rfl, rfl⟩, rfl⟩
  rw [if_neg hhuge]
  unfold styleOf
  by_cases hv : e.parvmec = true
  · -- parvmec
    have hnb : s.restart = .noRestart := by
      have hs : styleOf e = .parvmec := by unfold styleOf; rw [if_pos hv]
      rw [hs] at hN
      rw [hr]
      cases hb : p.m.restart
      · rfl
      · exfalso
        unfold jacobianNotes at hN
        rw [if_pos hb, if_neg (by simp)] at hN
        have := congrArg (fun q => q.notes.length) hN
        simp [PSt.note] at this
      · exact absurd (hr.trans hb) hn
      · exact absurd hb hhuge
    rw [if_pos hv]
    refine hlift _ _ ?_
    dsimp only
    unfold controlParvmec Control.control
    rw [if_pos hv, e2]
    have hb := n1 hv
    dsimp only
    rw [← hF, ← hF0]
    by_cases cA : s.fsq.le a = true ∧ (D.add (D.add s.fsqr s.fsqz) s.fsql).le b' = true
    · rw [if_pos cA, if_pos (by rw [hb]; exact cA)]
      exact ctl_save hI R hnb
    · rw [if_neg cA, if_neg (by rw [hb]; exact cA)]
      by_cases cB : p.iter2 - p.iter1 > 10 ∧ (D.lt (D.scale (10 ^ 4) a) s.fsq = true ∨
          D.lt (D.scale (10 ^ 4) b') (D.add (D.add s.fsqr s.fsqz) s.fsql) = true)
      · rw [if_pos cB, if_pos (by rw [hb, hI1, ← hi]; exact cB)]
        exact ctl_gentle hI R hi h1
      · rw [if_neg cB, if_neg (by rw [hb, hI1, ← hi]; exact cB)]
        exact ctl_nothing hI R hnb
  · rw [if_neg hv]
    refine hlift _ _ ?_
    dsimp only
    unfold control852 Control.control
    rw [if_neg hv, e2]
    dsimp only
    have eA : (s.fsq.le a = true ∧ i - s.iter1 > 10) ↔ ((fsq1 p.m).le a = true ∧ p.iter2 - p.iter1 > 10) := by rw [hF, hI1, hi]
    have eB : (D.lt (D.scale 100 a) s.fsq = true ∧ i > s.iter1) ↔ (D.lt (D.scale 100 a) (fsq1 p.m) = true ∧ p.iter2 > p.iter1) := by
      rw [hF, hI1, hi]
    have eC : (i - s.iter1 > 12 ∧ i > 50 ∧ D.lt (.fin (1 / 100)) (D.add s.fsqr s.fsqz) = true) ↔ slow p = true := by
      unfold slow
      rw [hS, hI1, hi]
      simp
    have eC' : slow { p with res0 := a, res1 := b' } = slow p := rfl
    rw [eC']
    by_cases hb : p.m.restart = .badJacobian
    · have hs : styleOf e = .vmec852 := by unfold styleOf; rw [if_neg hv]
      rw [hs] at hN
      unfold jacobianNotes at hN
      rw [if_pos hb, if_pos rfl, e2] at hN
      dsimp only at hN
      have hsb : s.restart = .badJacobian := hr.trans hb
      rw [if_pos (Or.inl hb)]
      have hkeep : Ctl e { s with res0 := a, res1 := b } { p with res0 := a, res1 := b' } bad (act e i bad { s with res0 := a, res1 := b })
          (hard e { p with res0 := a, res1 := b' }, bad + 1) := by
        have := ctl_hard (bad := bad) hI R (i := i) hi h1
        dsimp only at this
        rw [← hsb] at this
        exact this
      split at hN
      · exfalso
        have := congrArg (fun q => q.notes.length) hN
        simp [PSt.note] at this
      · rename_i cA
        rw [if_neg (fun q => cA (eA.1 q))]
        split at hN
        · rename_i cB
          rw [if_pos (eB.2 cB)]
          exact ctl_hard hI R hi h1
        · rename_i cB
          rw [if_neg (fun q => cB (eB.1 q))]
          split at hN
          · exfalso
            have := congrArg (fun q => q.notes.length) hN
            simp [PSt.note] at this
          · rename_i cC
            rw [if_neg (fun q => cC (eC.1 q))]
            exact hkeep
    · have hnb : s.restart = .noRestart := by
        rw [hr]
        cases hb' : p.m.restart
        · rfl
        · exact absurd hb' hb
        · exact absurd (hr.trans hb') hn
        · exact absurd hb' hhuge
      by_cases cB : D.lt (D.scale 100 a) (fsq1 p.m) = true ∧ p.iter2 > p.iter1
      · rw [if_pos (Or.inr cB)]
        have cA : ¬ (s.fsq.le a = true ∧ i - s.iter1 > 10) := by
          intro q
          have := not_blown n2 (eA.1 q).1
          rw [cB.1] at this; cases this
        rw [if_neg cA, if_pos (eB.2 cB)]
        exact ctl_hard hI R hi h1
      · have cO : ¬ (p.m.restart = .badJacobian ∨ (D.lt (D.scale 100 a) (fsq1 p.m) = true ∧ p.iter2 > p.iter1)) := fun q => q.elim hb cB
        rw [if_neg cO]
        by_cases cA : (fsq1 p.m).le a = true ∧ p.iter2 - p.iter1 > 10
        · rw [if_pos cA, if_pos (eA.2 cA)]
          exact ctl_save hI R hnb
        · rw [if_neg cA, if_neg (fun q => cA (eA.1 q)), if_neg (fun q => cB (eB.1 q))]
          by_cases cC : slow p = true
          · rw [if_pos (eC.2 cC), if_pos cC]
            exact ctl_gentle hI R hi h1
          · rw [if_neg (fun q => cC (eC.1 q)), if_neg cC]
            exact ctl_nothing hI R hnb

end Verif.PyDriver
