import Verif.Control.Iteration

/-!
# Facts about a whole stage (helper file)
-/
namespace Verif.Control
open Verif

variable {X V : Type}

/-! ## undefined behaviour needs a zero update interval -/

theorem update_ub (e : Env X V) (s : St X V) (h : update e s = .ub) :
    e.lfreeb = true ∧ s.nvacskip = 0 := by
  unfold update at h
  dsimp only at h
  split at h
  · simp at h
  · split at h
    · simp at h
    · split at h
      · unfold finishUpdate at h
        dsimp only at h
        split at h <;> simp at h
      · simp at h
      · rename_i hv
        unfold vacuumBlock at hv
        split at hv
        · rename_i hc
          split at hv
          · rename_i h0
            exact ⟨hc.1, h0⟩
          · dsimp only at hv
            split at hv
            · split at hv
              · simp at hv
              · split at hv <;> simp at hv
            · simp at hv
        · simp at hv

theorem evolve_ub (e : Env X V) (s : St X V) (h : evolve e s = .ub) :
    e.lfreeb = true ∧ s.nvacskip = 0 := by
  unfold evolve at h
  dsimp only at h
  split at h
  · split at h <;> simp at h
  · rename_i hne
    unfold updateForwardModel at h
    split at h
    · simp at h
    · rename_i hne2
      exact update_ub e { s with restart := .noRestart } h

theorem iterate_ub (e : Env X V) (fi bad : Int) (s s' : St X V)
    (h : iterate e fi bad s = .stop .ub s') : e.lfreeb = true ∧ s'.nvacskip = 0 := by
  unfold iterate at h
  split at h
  · rename_i he
    injection h with _ h
    rw [← h]; exact evolve_ub e s he
  · injection h with h _
    simp at h
  · split at h
    · injection h with h _; simp at h
    · split at h
      · split at h <;> (injection h with h _; simp at h)
      · split at h
        · injection h with h _; simp at h
        · unfold endOfIteration at h
          dsimp only at h
          simp at h

theorem loop_ub (e : Env X V) (n : Nat) : ∀ (fi bad : Int) (s : St X V),
    (loop e n fi bad s).1 = .ub → e.lfreeb = true ∧ (loop e n fi bad s).2.nvacskip = 0 := by
  induction n with
  | zero => intro fi bad s h; simp [loop] at h
  | succ n ih =>
    intro fi bad s h
    rw [loop] at h ⊢
    split at h
    · rename_i hl
      rw [if_pos hl]
      match hm : iterate e fi bad s with
      | .next s' bad' => rw [hm] at h; exact ih _ _ _ h
      | .stop r s' =>
        rw [hm] at h
        dsimp only at h
        subst h
        exact iterate_ub e fi bad s s' hm
    · simp at h

theorem attempts_ub (e : Env X V) (n : Nat) : ∀ (r : LoopRet) (s : St X V), r = .mustRetry ∨
      (r = .ub → e.lfreeb = true ∧ s.nvacskip = 0) →
    (attempts e n r s).1 = .ub → e.lfreeb = true ∧ (attempts e n r s).2.nvacskip = 0 := by
  induction n with
  | zero =>
    intro r s hr h
    rw [attempts] at h ⊢
    rcases hr with rfl | hr
    · simp at h
    · exact hr h
  | succ n ih =>
    intro r s hr h
    rw [attempts] at h ⊢
    split at h
    · rename_i hc
      rw [if_pos hc]
      exact ih _ _ (Or.inr (fun hu => loop_ub e _ _ _ _ hu)) h
    · rename_i hc
      rw [if_neg hc]
      rcases hr with rfl | hr
      · simp at h
      · exact hr h

/-! ## number of evaluations -/

structure EvalInv (n : Nat) (s : St X V) : Prop where
  val : s.evals = n + evaluations s.log

theorem evaluations_cons (a : Ev X V) (t : List (Ev X V)) :
    evaluations (a :: t) = (match a with | .evaluate _ => 1 | _ => 0) + evaluations t := by
  unfold evaluations
  cases a <;> simp [Nat.add_comm]

theorem prim_evals (e : Env X V) (n : Nat) (s s' : St X V) (h : Prim e s s')
    (hs : EvalInv n s) : EvalInv n s' := by
  obtain ⟨h1⟩ := hs
  cases h <;> prim_simp <;> (try split_ifs) <;> constructor <;>
    simp_all [evaluations_cons]
  omega

/-! ## the start of a stage -/

/-- the state in which `SolveEquilibrium` starts -/
def begun (e : Env X V) (nvacskip0 : Int) (continuation newModel : Bool) (x0 : X)
    (s : St X V) : St X V :=
  { initializeRadial e nvacskip0 continuation newModel x0 { s with log := [], tries := 0 } with
    liter := true, lreset := false }

variable (e : Env X V) (nv : Int) (c m : Bool) (x0 : X) (s : St X V)

theorem begun_log : (begun e nv c m x0 s).log = [] ∨ (begun e nv c m x0 s).log = [.save x0] := by
  unfold begun initializeRadial saveState St.emit
  dsimp only
  cases m
  · left; simp only [Bool.false_eq_true, if_false]; split <;> rfl
  · right; simp only [if_true]; split <;> rfl

theorem begun_x : (begun e nv c m x0 s).x = if m then x0 else s.x := by
  unfold begun initializeRadial saveState St.emit
  dsimp only
  cases m
  · simp only [Bool.false_eq_true, if_false]; split <;> rfl
  · simp only [if_true]

theorem begun_v : (begun e nv c m x0 s).v = if m then e.zeroV else s.v := by
  unfold begun initializeRadial saveState St.emit
  dsimp only
  cases m
  · simp only [Bool.false_eq_true, if_false]; split <;> rfl
  · simp only [if_true]

theorem begun_backup : (begun e nv c m x0 s).backup = if m then x0 else s.backup := by
  unfold begun initializeRadial saveState St.emit
  dsimp only
  cases m
  · simp only [Bool.false_eq_true, if_false]; split <;> rfl
  · simp only [if_true]

theorem begun_nvacskip : (begun e nv c m x0 s).nvacskip = if m then nv else s.nvacskip := by
  unfold begun initializeRadial saveState St.emit
  dsimp only
  cases m
  · simp only [Bool.false_eq_true, if_false]; split <;> rfl
  · simp only [if_true]

theorem begun_vac : (begun e nv c m x0 s).vac =
    if e.lfreeb ∧ c ∧ s.vac = .active then .initialized else s.vac := by
  unfold begun initializeRadial saveState St.emit
  dsimp only
  cases m
  · simp only [Bool.false_eq_true, if_false]; split <;> rfl
  · simp only [if_true]; split <;> rfl

theorem begun_misc : (begun e nv c m x0 s).iter2 = 1 ∧ (begun e nv c m x0 s).ijacob = 0 ∧
    (begun e nv c m x0 s).delt0r = e.delt ∧ (begun e nv c m x0 s).liter = true ∧
    (begun e nv c m x0 s).evals = s.evals ∧ (begun e nv c m x0 s).tries = 0 ∧
    (begun e nv c m x0 s).interrupted = s.interrupted := by
  unfold begun initializeRadial saveState St.emit
  dsimp only
  cases m
  · simp only [Bool.false_eq_true, if_false]; split <;> simp
  · simp only [if_true]; split <;> simp

theorem begun_head : Head e (begun e nv c m x0 s) := by
  obtain ⟨h1, h2, -⟩ := begun_misc e nv c m x0 s
  rcases begun_log e nv c m x0 s with h | h
  · refine ⟨⟨?_, ?_, ?_, ?_, ?_, ?_⟩, Or.inl h1, ?_, ?_, ?_, ?_⟩ <;>
      simp [h, h2, counterValue, evaluationsBeyond75, softRestartPending, All]
  · refine ⟨⟨?_, ?_, ?_, ?_, ?_, ?_⟩, Or.inl h1, ?_, ?_, ?_, ?_⟩ <;>
      simp [h, h2, counterValue, evaluationsBeyond75, softRestartPending, All, CntOk, SoftOk]

/-! ## the end of a stage -/

/-- the state after the last attempt of a stage -/
def lastState : St X V := (attempts e e.niter.toNat .mustRetry (begun e nv c m x0 s)).2

theorem lastState_reach : ReachT e (begun e nv c m x0 s) (lastState e nv c m x0 s) := by
  obtain ⟨h1, h2, -⟩ := begun_misc e nv c m x0 s
  exact (attempts_spec e e.niter.toNat .mustRetry (begun e nv c m x0 s) (by omega) (by omega)).1

theorem lastState_bounds : (lastState e nv c m x0 s).evals ≤ s.evals + 4 * e.niter.toNat ∧
    (lastState e nv c m x0 s).tries ≤ 4 := by
  obtain ⟨h1, h2, h3, h4, h5, h6, h7⟩ := begun_misc e nv c m x0 s
  obtain ⟨-, a2, a3, -⟩ := attempts_spec e e.niter.toNat .mustRetry (begun e nv c m x0 s)
    (by omega) (by omega)
  rw [h2] at a2 a3
  rw [h5] at a2
  rw [h6] at a3
  constructor
  · unfold lastState; simpa [retriesLeft] using a2
  · unfold lastState; simpa [retriesLeft] using a3

theorem stage_state : (stage e nv c m x0 s).2 = lastState e nv c m x0 s ∨
    ((stage e nv c m x0 s).1 = .done ∧
      (stage e nv c m x0 s).2 = { lastState e nv c m x0 s with status := .unrecoverable }) := by
  have hs : stage e nv c m x0 s = solveEquilibrium e
      (initializeRadial e nv c m x0 { s with log := [], tries := 0 }) := rfl
  rw [hs]
  unfold solveEquilibrium lastState
  dsimp only [begun]
  split
  · exact Or.inl rfl
  · split
    · exact Or.inl rfl
    · split
      · exact Or.inr ⟨rfl, rfl⟩
      · exact Or.inl rfl
    · exact Or.inl rfl

/-- an invariant of the primitive steps holds at the end of the stage -/
theorem stage_inv {I : St X V → Prop} (hI : ∀ s s', Prim e s s' → I s → I s')
    (ht : ∀ s, I s → I { s with tries := s.tries + 1 })
    (hu : ∀ s, I s → I { s with status := .unrecoverable })
    (h0 : I (begun e nv c m x0 s)) : I (stage e nv c m x0 s).2 := by
  have h := (lastState_reach e nv c m x0 s).inv hI ht h0
  rcases stage_state e nv c m x0 s with h2 | ⟨-, h2⟩
  · rw [h2]; exact h
  · rw [h2]; exact hu _ h

/-- the update interval is usable -/
def IntervalOk : Prop := e.lfreeb = true → 1 ≤ (if m then nv else s.nvacskip)

theorem begun_interval :
    IntervalInv (if m then nv else s.nvacskip) (begun e nv c m x0 s) := by
  refine ⟨?_, ?_, ?_, ?_⟩
  · rw [begun_nvacskip]
  · rw [begun_nvacskip]; omega
  · rw [begun_nvacskip]
    rcases begun_log e nv c m x0 s with h | h <;> rw [h] <;> rfl
  · rcases begun_log e nv c m x0 s with h | h <;> rw [h] <;> simp [All, IntervalEv]

theorem attempts_not_ub (h : IntervalOk e nv m s) :
    (attempts e e.niter.toNat .mustRetry (begun e nv c m x0 s)).1 ≠ .ub := by
  intro hu
  obtain ⟨a, b⟩ := attempts_ub e e.niter.toNat .mustRetry (begun e nv c m x0 s) (Or.inl rfl) hu
  have h1 := (lastState_reach e nv c m x0 s).inv (I := IntervalInv (if m then nv else s.nvacskip))
    (prim_interval e _) (fun s hs => ⟨hs.lo, hs.hi, hs.val, hs.all⟩) (begun_interval e nv c m x0 s)
  have h2 := h a
  have h3 := h1.lo
  unfold lastState at h3
  omega

theorem stage_final (hn : 1 ≤ e.niter) (h : IntervalOk e nv m s) :
    Final e (stage e nv c m x0 s).2 := by
  obtain ⟨-, -, -, h4, -⟩ := begun_misc e nv c m x0 s
  have hh := begun_head e nv c m x0 s
  have hub := attempts_not_ub e nv c m x0 s h
  have hf : Final e (lastState e nv c m x0 s) := by
    unfold lastState
    obtain ⟨k, hk⟩ : ∃ k, e.niter.toNat = k + 1 := ⟨e.niter.toNat - 1, by omega⟩
    rw [hk] at hub ⊢
    rw [attempts, if_pos ⟨rfl, h4⟩] at hub ⊢
    obtain ⟨b1, b2⟩ := sel_final e { begun e nv c m x0 s with
        tries := (begun e nv c m x0 s).tries + 1 }
      ⟨⟨hh.cnt.val, hh.cnt.nonneg, hh.cnt.axis, hh.cnt.r25, hh.cnt.r50, hh.cnt.all⟩,
          hh.q, hh.beyond, hh.noGive, hh.pend, hh.all⟩
    exact attempts_final e k _ _ b1 b2 hub
  rcases stage_state e nv c m x0 s with h2 | ⟨-, h2⟩
  · rw [h2]; exact hf
  · rw [h2]; exact ⟨by simp, hf.beyond, by simp, by simp, hf.all⟩

theorem stage_not_ub (h : IntervalOk e nv m s) : (stage e nv c m x0 s).1 ≠ .ub := by
  have hub := attempts_not_ub e nv c m x0 s h
  have hs : stage e nv c m x0 s = solveEquilibrium e
      (initializeRadial e nv c m x0 { s with log := [], tries := 0 }) := rfl
  rw [hs]
  unfold solveEquilibrium
  intro h
  apply hub
  dsimp only [begun] at h ⊢
  split at h
  · simp at h
  · split at h
    · assumption
    · split at h <;> simp at h
    · simp at h

end Verif.Control
