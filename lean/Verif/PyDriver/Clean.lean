import Verif.PyDriver.Sim

/-!
# Runs without harmful notes
-/
namespace Verif.PyDriver
open Verif Verif.Control

variable {X V : Type}

/-- forward models for which the two drivers agree -/
structure CleanEnv (e : Env X V) : Prop where
  fixedBoundary : e.lfreeb = false
  jac : ∀ n, 1 ≤ n → (e.phys n).badJacobian = false
  fin : ∀ n, (e.phys n).fsqr.isFinite = true ∧ (e.phys n).fsqz.isFinite = true ∧ (e.phys n).fsql.isFinite = true
  sum : ∀ n, ∃ q : ℚ, 0 < q ∧ D.add (D.add (e.phys n).fsqr1 (e.phys n).fsqz1) (e.phys n).fsql1 = .fin q
  huge : (e.phys 0).badJacobian = true ∨ D.lt (.fin 100) (D.add (D.add (e.phys 0).fsqr (e.phys 0).fsqz) (e.phys 0).fsql) = false

/-- invariant at the head of the inner loop for iteration counter `i` -/
structure CInv (e : Env X V) (p : PSt X V) (i : Int) : Prop where
  zero : p.m.evals = 0 → p.m.v = e.zeroV ∧ i = 1 ∧ p.iter1 = 1
  later : 1 ≤ p.m.evals → 2 ≤ i ∨ 1 ≤ p.ijacob
  prev : ∃ q : ℚ, 0 < q ∧ p.fsqPrev = .fin q
  ij : 0 ≤ p.ijacob
  conv : p.converged = false
  notes : ∀ n ∈ p.notes, harmless e.zeroV n

theorem log_fine {i1 i2 : Int} {a b : ℚ} (ha : 0 < a) (hb : 0 < b) : logRaises i1 i2 (.fin a) (.fin b) = false := by
  unfold logRaises
  have h1 : ¬ a < 0 := by linarith
  have h2 : ¬ b < 0 := by linarith
  have h3 : b ≠ 0 := ne_of_gt hb
  simp [isInf, isNeg, h1, h2, h3]

/-- a usable evaluation -/
theorem update_good {e : Env X V} (C : CleanEnv e) {m : St X V} (hg : (e.phys m.evals).badJacobian = false) (hr : m.restart = .noRestart) :
    (∃ m' r, update e m = .err m' r) ∨ ∃ m', update e m = .ok m' false ∧ m'.evals = m.evals + 1 ∧ m'.v = m.v ∧
      m'.restart ≠ .badJacobian ∧ (m'.restart = .hugeInitialForces → m.iter2 = 1 ∧
        D.lt (.fin 100) (D.add (D.add (e.phys m.evals).fsqr (e.phys m.evals).fsqz) (e.phys m.evals).fsql) = true) ∧
      (m'.fsqr.isFinite = true ∧ m'.fsqz.isFinite = true ∧ m'.fsql.isFinite = true) ∧ ∃ q : ℚ, 0 < q ∧ fsq1 m' = .fin q := by
  rw [update_fixed C.fixedBoundary, if_neg (by simp [hg])]
  split
  · exact Or.inl ⟨_, _, rfl⟩
  · unfold finishUpdate
    dsimp only
    split
    · exact Or.inl ⟨_, _, rfl⟩
    · right
      unfold hugeForces
      split
      · rename_i hc
        exact ⟨_, rfl, rfl, rfl, by simp, fun _ => hc, C.fin _, C.sum _⟩
      · refine ⟨_, rfl, rfl, rfl, ?_, ?_, C.fin _, C.sum _⟩
        · show m.restart ≠ _; rw [hr]; simp
        · intro h
          have : m.restart = _ := h
          rw [hr] at this; cases this

theorem control_ijacob (e : Env X V) (style : Style) (p : PSt X V) (bad : Int) :
    p.ijacob ≤ (control e style p bad).1.ijacob ∧ (control e style p bad).1.converged = p.converged ∧
    (control e style p bad).1.fsqPrev = p.fsqPrev ∧ (control e style p bad).1.m.evals = p.m.evals ∧
    (control e style p bad).1.mustRetry = p.mustRetry ∧
    bad ≤ (control e style p bad).2 ∧ (control e style p bad).2 ≤ bad + 1 := by
  have hs : (lower (seed p)).ijacob = p.ijacob ∧ (lower (seed p)).converged = p.converged ∧ (lower (seed p)).fsqPrev = p.fsqPrev ∧
      (lower (seed p)).m = p.m ∧ (lower (seed p)).mustRetry = p.mustRetry := by
    unfold seed; split <;> exact ⟨rfl, rfl, rfl, rfl, rfl⟩
  obtain ⟨s1, s2, s3, s4, s5⟩ := hs
  unfold PyDriver.control
  split
  · unfold controlHuge
    exact ⟨le_of_eq s1.symm, s2, s3, by show (lower (seed p)).m.evals = _; rw [s4], s5, by dsimp only; omega, by dsimp only; omega⟩
  · cases style
    · show p.ijacob ≤ (control852 e p bad).1.ijacob ∧ (control852 e p bad).1.converged = _ ∧ (control852 e p bad).1.fsqPrev = _ ∧
        (control852 e p bad).1.m.evals = _ ∧ (control852 e p bad).1.mustRetry = _ ∧ bad ≤ (control852 e p bad).2 ∧ (control852 e p bad).2 ≤ bad + 1
      unfold control852
      dsimp only
      repeat' split
      all_goals refine ⟨?_, s2, s3, by show (lower (seed p)).m.evals = _; rw [s4], s5, by dsimp only; omega, by dsimp only; omega⟩
      · show _ ≤ (lower (seed p)).ijacob + 1; omega
      all_goals exact le_of_eq s1.symm
    · show p.ijacob ≤ (controlParvmec e p bad).1.ijacob ∧ (controlParvmec e p bad).1.converged = _ ∧ (controlParvmec e p bad).1.fsqPrev = _ ∧
        (controlParvmec e p bad).1.m.evals = _ ∧ (controlParvmec e p bad).1.mustRetry = _ ∧ bad ≤ (controlParvmec e p bad).2 ∧ (controlParvmec e p bad).2 ≤ bad + 1
      unfold controlParvmec
      dsimp only
      repeat' split
      all_goals exact ⟨le_of_eq s1.symm, s2, s3, by show (lower (seed p)).m.evals = _; rw [s4], s5, by dsimp only; omega, by dsimp only; omega⟩
    · show p.ijacob ≤ (controlRobust e p bad).1.ijacob ∧ (controlRobust e p bad).1.converged = _ ∧ (controlRobust e p bad).1.fsqPrev = _ ∧
        (controlRobust e p bad).1.m.evals = _ ∧ (controlRobust e p bad).1.mustRetry = _ ∧ bad ≤ (controlRobust e p bad).2 ∧ (controlRobust e p bad).2 ≤ bad + 1
      unfold controlRobust
      dsimp only
      repeat' split
      all_goals exact ⟨le_of_eq s1.symm, s2, s3, by show (lower (seed p)).m.evals = _; rw [s4], s5, by dsimp only; omega, by dsimp only; omega⟩

/-- nothing is reset in the first iteration of a stage -/
theorem control_first (e : Env X V) (style : Style) (p : PSt X V) (bad : Int) (hr : p.m.restart = .noRestart) (h2 : p.iter2 = 1)
    (h1 : p.iter1 = 1) : (control e style p bad).2 = bad := by
  have hs : (lower (seed p)).iter1 = 1 ∧ (lower (seed p)).iter2 = 1 ∧ (lower (seed p)).m = p.m := by
    unfold seed; split <;> exact ⟨h1, h2, rfl⟩
  obtain ⟨s1, s2, s3⟩ := hs
  have hsl : slow (lower (seed p)) = false := by
    unfold slow
    rw [s1, s2]
    simp
  unfold PyDriver.control
  rw [if_neg (by rw [hr]; simp)]
  cases style
  · show (control852 e p bad).2 = bad
    unfold control852
    dsimp only
    rw [if_neg (by rw [s3, hr, s1, s2]; simp), hsl]
    split
    · rfl
    · rw [if_neg (by simp)]
  · show (controlParvmec e p bad).2 = bad
    unfold controlParvmec
    dsimp only
    split
    · rfl
    · rw [if_neg (by rw [s1, s2]; simp)]
  · show (controlRobust e p bad).2 = bad
    unfold controlRobust
    dsimp only
    split
    · rfl
    · rw [if_neg (by rw [s1, s2, hsl]; simp)]

/-- a pass in which the Jacobian is usable -/
theorem decide_clean {e : Env X V} {style : Style} {fi bad : Int} {p : PSt X V} (hr : p.m.restart ≠ .badJacobian)
    (hh : p.m.restart = .hugeInitialForces → 1 ≤ p.ijacob) (hev : 1 ≤ p.m.evals) (hi : p.iter2 = fi - bad)
    (hf : p.m.restart = .noRestart ∧ p.iter2 = 1 ∧ p.iter1 = 1 ∨ 2 ≤ fi - bad ∨ 1 ≤ p.ijacob)
    (hp : ∃ q : ℚ, 0 < q ∧ p.fsqPrev = .fin q) (hj : 0 ≤ p.ijacob) (hc : p.converged = false) (hN : ∀ n ∈ p.notes, harmless e.zeroV n) :
    (∃ p' b, decide e style bad false p = .next p' b ∧ CInv e p' (fi + 1 - b) ∧ p'.mustRetry = p.mustRetry) ∨
    ∃ p', decide e style bad false p = .stop p' ∧ p'.converged = false ∧ (∀ n ∈ p'.notes, harmless e.zeroV n) ∧
      (p'.failed = true ∨ (CInv e p' p'.iter2 ∧ 1 ≤ p'.ijacob)) := by
  have hJ : jacobianNotes style p = p := by unfold jacobianNotes; rw [if_neg hr]
  unfold PyDriver.decide
  rw [if_neg (by
    rintro ⟨a, b, -⟩
    rcases b with b | b
    · cases b
    · have := hh b; omega), if_neg (by simp)]
  split
  · rename_i c
    right
    refine ⟨_, rfl, hc, hN, Or.inr ⟨⟨?_, ?_, hp, ?_, hc, hN⟩, ?_⟩⟩
    · intro h
      have : p.m.evals = 0 := h
      omega
    · intro _; right
      show 1 ≤ p.ijacob + 1; omega
    · show 0 ≤ p.ijacob + 1; omega
    · show 1 ≤ p.ijacob + 1; omega
  · split
    · exact Or.inr ⟨_, rfl, hc, hN, Or.inl rfl⟩
    · left
      rw [hJ]
      obtain ⟨k1, k2, k3, k4, k7, k5, k6⟩ := control_ijacob e style p bad
      refine ⟨_, _, rfl, ⟨?_, ?_, by rw [k3]; exact hp, by omega, k2.trans hc, by rw [control_notes]; exact hN⟩, k7⟩
      · intro h; omega
      · intro _
        rcases hf with ⟨f1, f2, f3⟩ | f | f
        · left
          have := control_first e style p bad f1 f2 f3
          omega
        · left; omega
        · right; omega

theorem iterate_clean {e : Env X V} (C : CleanEnv e) {style : Style} {fi bad : Int} {p : PSt X V} (h : CInv e p (fi - bad)) :
    (∃ p' b, iterate e style fi bad p = .next p' b ∧ CInv e p' (fi + 1 - b) ∧ p'.mustRetry = p.mustRetry) ∨
    (∃ p', iterate e style fi bad p = .stop p' ∧ p'.converged = true ∧ ∃ l, p'.notes = .converged p'.ijacob :: l ∧ ∀ n ∈ l, harmless e.zeroV n) ∨
    (∃ p', iterate e style fi bad p = .stop p' ∧ p'.converged = false ∧ (∀ n ∈ p'.notes, harmless e.zeroV n) ∧
      (p'.failed = true ∨ (CInv e p' p'.iter2 ∧ 1 ≤ p'.ijacob))) ∨
    ∃ p' r, iterate e style fi bad p = .raised p' r ∧ ∀ n ∈ p'.notes, harmless e.zeroV n := by
  unfold PyDriver.iterate evaluate
  dsimp only
  by_cases hb : (e.phys p.m.evals).badJacobian = true
  · -- the first evaluation has a bad Jacobian
    have h0 : p.m.evals = 0 := by
      by_contra hne
      have := C.jac p.m.evals (by omega)
      rw [hb] at this; cases this
    obtain ⟨z1, z2, z3⟩ := h.zero h0
    have e1 : update e { p.m with restart := .noRestart, iter1 := p.iter1, iter2 := fi - bad } =
        .ok (evalBad (beginUpdate e { p.m with restart := .noRestart, iter1 := p.iter1, iter2 := fi - bad })) false := by
      rw [update_fixed C.fixedBoundary, if_pos hb]
    rw [e1]
    dsimp only
    have hsb : statusBad (fi - bad) (evalBad (beginUpdate e { p.m with restart := .noRestart, iter1 := p.iter1, iter2 := fi - bad })) = true := by
      unfold statusBad
      apply decide_eq_true
      left
      exact ⟨z2, rfl⟩
    rw [hsb, if_neg (by simp), if_pos rfl]
    right; right; left
    unfold PyDriver.decide
    split
    · refine ⟨_, rfl, h.conv, ?_, Or.inr ⟨⟨?_, ?_, h.prev, ?_, h.conv, ?_⟩, ?_⟩⟩
      · intro n hn
        rcases List.mem_cons.1 hn with rfl | hn
        · exact z1
        · exact h.notes n hn
      · intro hz
        have : p.m.evals + 1 = 0 := hz
        omega
      · intro _; right; show (1 : Int) ≤ 1; omega
      · show (0 : Int) ≤ 1; omega
      · intro n hn
        rcases List.mem_cons.1 hn with rfl | hn
        · exact z1
        · exact h.notes n hn
      · show (1 : Int) ≤ 1; omega
    · rw [if_pos rfl]
      exact ⟨_, rfl, h.conv, h.notes, Or.inl rfl⟩
  · have hb' : (e.phys p.m.evals).badJacobian = false := by simpa using hb
    rcases update_good C (m := { p.m with restart := .noRestart, iter1 := p.iter1, iter2 := fi - bad }) hb' rfl with ⟨m', r, hu⟩ |
      ⟨m', hu, u1, u2, u3, u4, u5, q, q1, q2⟩
    · rw [hu]
      exact Or.inr (Or.inr (Or.inr ⟨_, _, rfl, h.notes⟩))
    · rw [hu]
      dsimp only at u1 u2 u4 ⊢
      have hsb : statusBad (fi - bad) m' = false := by
        unfold statusBad
        apply decide_eq_false
        rintro (⟨-, a⟩ | a)
        · exact u3 a
        · exact a u5
      rw [hsb]
      split
      · exact Or.inr (Or.inl ⟨_, rfl, rfl, p.notes, rfl, h.notes⟩)
      · rw [if_neg (by simp)]
        obtain ⟨pq, pq1, pq2⟩ := h.prev
        have hlr : logRaises p.iter1 (fi - bad) (fsq1 m') p.fsqPrev = false := by rw [q2, pq2]; exact log_fine q1 pq1
        rw [hlr, if_neg (by simp)]
        have hnn : (timeStep e { p with m := m', iter2 := fi - bad }).notes = p.notes := by
          unfold PyDriver.timeStep
          dsimp only
          rw [if_neg]
          rintro ⟨-, a⟩
          rw [q2] at a
          injection a with a
          linarith
        have hD := decide_clean (e := e) (style := style) (fi := fi) (bad := bad) (p := timeStep e { p with m := m', iter2 := fi - bad }) u3 ?_ ?_ rfl ?_ ⟨q, q1, q2⟩ h.ij h.conv
          (by rw [hnn]; exact h.notes)
        · rcases hD with hD | hD
          · exact Or.inl hD
          · exact Or.inr (Or.inr (Or.inl hD))
        · intro hh
          have u := u4 hh
          show 1 ≤ p.ijacob
          by_cases he : p.m.evals = 0
          · rcases C.huge with g | g
            · rw [he] at hb'; rw [g] at hb'; cases hb'
            · rw [he, g] at u; exact absurd u.2 (by simp)
          · rcases h.later (by omega) with g | g
            · omega
            · exact g
        · show 1 ≤ m'.evals
          omega
        · by_cases he : p.m.evals = 0
          · obtain ⟨z1, z2, z3⟩ := h.zero he
            left
            refine ⟨?_, z2, z3⟩
            show m'.restart = .noRestart
            cases hc : m'.restart
            · rfl
            · exact absurd hc u3
            · exfalso
              -- the model never asks for a gentle restart
              have := update_fixed C.fixedBoundary { p.m with restart := .noRestart, iter1 := p.iter1, iter2 := fi - bad }
              rw [hu, if_neg (by simp [hb'])] at this
              split at this
              · cases this
              · unfold finishUpdate hugeForces at this
                dsimp only at this
                split at this
                · cases this
                · injection this with h1
                  rw [h1] at hc
                  split at hc <;> cases hc
            · have u := u4 hc
              rcases C.huge with g | g
              · rw [he] at hb'; rw [g] at hb'; cases hb'
              · rw [he, g] at u; exact absurd u.2 (by simp)
          · rcases h.later (by omega) with g | g
            · exact Or.inr (Or.inl g)
            · exact Or.inr (Or.inr g)

/-- harmless, or about the final convergence -/
def Fine (e : Env X V) (p : PSt X V) : Prop := ∀ n ∈ p.notes, harmless e.zeroV n ∨ n = .converged p.ijacob

theorem loop_clean {e : Env X V} (C : CleanEnv e) (style : Style) (n : Nat) {fi bad : Int} {p : PSt X V} (h : CInv e p (fi - bad))
    (hm : p.mustRetry = false) : Fine e (loop e style n fi bad p).2 ∧ ((loop e style n fi bad p).1 = .returned →
      (((loop e style n fi bad p).2.mustRetry = false ∨ (loop e style n fi bad p).2.converged = true ∨ (loop e style n fi bad p).2.failed = true) ∨
        CInv e (loop e style n fi bad p).2 (loop e style n fi bad p).2.iter2)) := by
  induction n generalizing fi bad p with
  | zero => exact ⟨fun k hk => Or.inl (h.notes k hk), fun _ => Or.inl (Or.inl hm)⟩
  | succ n ih =>
    unfold PyDriver.loop
    rcases iterate_clean C (style := style) h with ⟨p', b, e1, h1, h2⟩ | ⟨p', e1, h1, l, h2, h3⟩ | ⟨p', e1, h1, h2, h3⟩ | ⟨p', r, e1, h1⟩ <;> rw [e1]
    · exact ih h1 (h2.trans hm)
    · refine ⟨?_, fun _ => Or.inl (Or.inr (Or.inl h1))⟩
      intro k hk
      have hk' : k ∈ p'.notes := hk
      rw [h2] at hk'
      rcases List.mem_cons.1 hk' with rfl | hk'
      · exact Or.inr rfl
      · exact Or.inl (h3 k hk')
    · refine ⟨fun k hk => Or.inl (h2 k hk), fun _ => ?_⟩
      rcases h3 with h3 | ⟨h3, -⟩
      · exact Or.inl (Or.inr (Or.inr h3))
      · exact Or.inr h3
    · exact ⟨fun k hk => Or.inl (h1 k hk), fun q => by cases q⟩

theorem enter_clean {e : Env X V} {nv : Int} {p : PSt X V} (h : CInv e p p.iter2) :
    CInv e (enter e nv p) (enter e nv p).iter2 ∧ (enter e nv p).mustRetry = false := by
  obtain ⟨k1, k2, k3, k4, k5, k6, k7⟩ := initializeRadial_keeps e nv (e.guess p.m.evals) p.m
  unfold enter
  dsimp only
  split
  · split
    · refine ⟨⟨fun h0 => ?_, fun h0 => ?_, h.prev, h.ij, h.conv, h.notes⟩, rfl⟩
      · have h0' : (initializeRadial e nv false true (e.guess p.m.evals) p.m).evals = 0 := h0
        rw [k7] at h0'
        exact ⟨rfl, (h.zero h0').2⟩
      · have h0' : 1 ≤ (initializeRadial e nv false true (e.guess p.m.evals) p.m).evals := h0
        rw [k7] at h0'
        exact h.later h0'
    · exact ⟨⟨h.zero, h.later, h.prev, h.ij, h.conv, h.notes⟩, rfl⟩
  · exact ⟨⟨h.zero, h.later, h.prev, h.ij, h.conv, h.notes⟩, rfl⟩

theorem attempts_clean {e : Env X V} (C : CleanEnv e) (style : Style) (nv : Int) (n : Nat) {p : PSt X V} (hF : Fine e p)
    (h : (p.mustRetry = false ∨ p.converged = true ∨ p.failed = true) ∨ CInv e p p.iter2) : Fine e (attempts e style nv n p).2 := by
  induction n generalizing p with
  | zero => exact hF
  | succ n ih =>
    unfold PyDriver.attempts
    split
    · rename_i c
      have hC : CInv e p p.iter2 := by
        rcases h with (h | h | h) | h
        · rw [h] at c; exact absurd c.1 (by simp)
        · exact absurd h c.2.1
        · exact absurd h c.2.2
        · exact h
      obtain ⟨h1, h2⟩ := enter_clean (nv := nv) hC
      have h1' : CInv e (enter e nv p) ((enter e nv p).iter2 - 0) := by simpa using h1
      obtain ⟨g1, g2⟩ := loop_clean C style (e.niter + 1 - (enter e nv p).iter2).toNat h1' h2
      dsimp only
      split
      · rename_i hr
        exact ih g1 (g2 hr)
      · exact g1
    · exact hF

/-- a run of the Python driver on a well-behaved forward model leaves no harmful note -/
theorem solve_clean {e : Env X V} (C : CleanEnv e) (style : Style) (nv : Int) {m : St X V} (he : m.evals = 0) (hv : m.v = e.zeroV) :
    Fine e (solve e style nv m).2 := by
  unfold solve
  refine attempts_clean C style nv _ (fun n hn => by cases hn) (Or.inr ⟨fun _ => ⟨hv, rfl, rfl⟩, fun h => ?_, ⟨1, by norm_num, rfl⟩, ?_, rfl, fun n hn => by cases hn⟩)
  · have : 1 ≤ m.evals := h
    omega
  · show (0 : Int) ≤ 0; omega

end Verif.PyDriver
