import Verif.Team.Lemmas

/-!
# The force evaluation never separates the team
-/
namespace Verif.Team

variable {R : Type} [Field R] [LinearOrder R] {n : Nat}

/-- all threads have returned, with the same value -/
def Together {S A : Type} (d : Cfg n S A) : Prop := ∃ r : A, Finished d (fun _ => r)

theorem together_ret {S A : Type} (s : S) (c : Nat) (r : A) :
    Together (start s c (fun _ : Fin n => (Prog.ret r : Prog S A))) := ⟨r, fun _ => rfl⟩

section rules
variable {S A : Type} {Post : Cfg n S A → Prop} {s : S} {J : S → Prop} {fs : List (S → S)}

theorem Pend.ite {p : Prop} [Decidable p] {K L : Fin n → Prog S A}
    (h1 : p → Pend Post s J fs K) (h2 : ¬ p → Pend Post s J fs L) :
    Pend Post s J fs (fun i => if p then K i else L i) := by
  by_cases hp : p
  · simpa [hp] using h1 hp
  · simpa [hp] using h2 hp

theorem Pend.barriers (hn : 0 < n) {K : Fin n → Prog S A} (m : Nat)
    (h : ∀ s, Pend Post s (fun _ => True) [] K) :
    Pend Post s (fun _ => True) [] (fun i => barriers m (K i)) := by
  induction m generalizing s with
  | zero => exact h s
  | succ m ih =>
    simp only [Team.barriers]
    exact Pend.barrier hn (Safe.enter ih)

theorem Pend.retTogether (hn : 0 < n) (r : A) : Pend (Together (n := n)) s J fs (fun _ => .ret r) :=
  Pend.ret hn fun _ => together_ret _ _ _
end rules

variable {s : Sh R} {J : Sh R → Prop} {fs : List (Sh R → Sh R)}

theorem Pend.ckpt (hn : 0 < n) {e : Cst R} {c : Ckpt} {K : Fin n → P R}
    (h : Pend Together s J fs K) : Pend Together s J fs (fun i => ckpt e c (K i)) := by
  unfold Team.ckpt
  exact Pend.ite (fun _ => Pend.retTogether hn _) (fun _ => h)

variable (e : Cst R) (l : Fin n → Local R)

theorem tail_safe (hn : 0 < n) (b : Bool) (k : Int) :
    Pend Together s J fs (fun i => tail e (l i) b k) := by
  unfold tail
  refine Pend.ckpt hn (Pend.barrier hn (Safe.enter (Pend.ckpt hn (Pend.barriers hn _ ?_))))
  intro s
  refine Pend.ckpt hn (Pend.rd (by simp) (Pend.ckpt hn (Pend.rd (by simp) ?_)))
  refine Pend.evalFResInvar hn (fun _ _ h => h) (Safe.enter (Pend.ckpt hn ?_))
  refine Pend.barrier hn (Safe.enter (Pend.ckpt hn (Pend.barrier hn (Safe.enter (Pend.ckpt hn ?_)))))
  refine Pend.ite (fun _ => Pend.retTogether hn _) (fun _ => ?_)
  refine Pend.barrier hn (Safe.enter (Pend.barrier hn (Safe.enter (Pend.ckpt hn ?_))))
  refine Pend.evalFResPrecd hn (fun _ _ h => h) (Safe.enter (Pend.ckpt hn ?_))
  exact Pend.singleB hn (fun _ h => h) (Safe.enter (Pend.retTogether hn _))

theorem vacuumSolve_safe (hn : 0 < n) (k : Int) :
    Pend Together s J fs (fun i => vacuumSolve e (l i) k) := by
  unfold vacuumSolve
  refine Pend.barrier hn (Safe.enter (Pend.rd (by simp) ?_))
  refine Pend.singleB hn (fun _ h => h) (Safe.enter (Pend.rd (by simp) ?_))
  refine Pend.ite (fun _ => Pend.retTogether hn _) (fun _ => ?_)
  refine Pend.singleB hn (fun t h => ?_) (Safe.enter (Pend.rd (by simp) ?_))
  · split <;> exact h
  refine Pend.ite (fun _ => Pend.retTogether hn _) (fun _ => Pend.rd (by simp) ?_)
  refine Pend.ite (fun _ => Pend.retTogether hn _) (fun _ => Pend.rd (by simp) ?_)
  refine Pend.ite (fun _ => ?_) (fun _ => Pend.ckpt hn (tail_safe e l hn _ _))
  exact Pend.singleB hn (fun _ h => h) (Safe.enter (Pend.ckpt hn (tail_safe e l hn _ _)))

theorem vacuumRun_safe (hn : 0 < n) (k : Int) :
    Pend Together s J fs (fun i => vacuumRun e (l i) k) := by
  unfold vacuumRun
  refine Pend.barrier hn (Safe.enter (Pend.rd (by simp) ?_))
  exact Pend.ite (fun _ => vacuumSolve_safe e l hn _) (fun _ => tail_safe e l hn _ _)

theorem vacuumInterval_safe (hn : 0 < n) (k : Int)
    (hJ : ∀ s v, J s → J { s with lastFullUpdateNestor := v }) :
    Pend Together s J [] (fun i => vacuumInterval e (l i) k) := by
  unfold vacuumInterval
  refine Pend.ite (fun _ => Pend.rd (by simp) ?_) (fun _ => vacuumRun_safe e l hn _)
  exact Pend.single (fun t h => ⟨hJ t _ h.1, h.2⟩) (vacuumRun_safe e l hn _)

theorem vacuumBlock_safe (hn : 0 < n)
    (hfs : ∀ f ∈ fs, ∀ t : Sh R, (f t).vac = t.vac) :
    Pend Together s J fs (fun i => vacuumBlock e (l i)) := by
  unfold vacuumBlock
  refine Pend.rd (fun f hf t _ => by simp only [hfs f hf t]) ?_
  refine Pend.ite (fun _ => ?_) (fun _ => tail_safe e l hn _ _)
  refine Pend.barrier hn (Safe.enter (Pend.rd (by simp) ?_))
  refine Pend.ite (fun _ => ?_) (fun _ => vacuumInterval_safe e l hn _ (fun _ _ h => h))
  refine Pend.barrier hn (Safe.enter (Pend.singleB hn (fun _ h => h) (Safe.enter ?_)))
  exact vacuumInterval_safe e l hn _ (fun _ _ h => h)

theorem virtualCkpt_safe (hn : 0 < n) (hfs : ∀ f ∈ fs, ∀ t : Sh R, (f t).vac = t.vac) :
    Pend Together s J fs (fun i => virtualCkpt e (l i)) := by
  unfold virtualCkpt
  exact Pend.ckpt hn (Pend.ckpt hn (Pend.ckpt hn (vacuumBlock_safe e l hn hfs)))

/-- the only thread-dependent exit: the error of `constraintForceMultiplier` -/
def Uniform (l : Fin n → Local R) : Prop := ∀ i j, (l i).tconError = (l j).tconError

theorem preconditionerBlock_safe (hn : 0 < n) (hu : Uniform l) 
    (hJ : ∀ s v, J s → J { s with lastPreconditionerUpdate := v })
    (hJ' : ∀ s v, J s → J { s with plasmaVolume := v }) :
    Pend Together s J [] (fun i => preconditionerBlock e (l i)) := by
  unfold preconditionerBlock
  refine Pend.ite (fun _ => ?_) (fun _ => virtualCkpt_safe e l hn (by simp))
  refine Pend.single (fun t h => hJ t _ h) (Pend.ckpt hn ?_)
  refine Pend.updateVolume hn (fun t v h => hJ' t _ h) (Safe.enter ?_)
  refine Pend.computeForceNorms hn (fun _ _ _ _ h => h) (Safe.enter (Pend.ckpt hn ?_))
  obtain ⟨b, hb⟩ : ∃ b, ∀ i, (l i).tconError = b := ⟨(l ⟨0, hn⟩).tconError, fun i => hu _ _⟩
  simp only [hb]
  exact Pend.ite (fun _ => Pend.retTogether hn _)
    (fun _ => Pend.ckpt hn (virtualCkpt_safe e l hn (by simp)))

theorem fieldBlock_safe (hn : 0 < n) (hu : Uniform l)
    (hJ : ∀ s v w, J s → J { s with thermalEnergy := v, magneticEnergy := w }) :
    Pend Together s J [] (fun i => fieldBlock e (l i)) := by
  unfold fieldBlock
  refine Pend.ckpt hn (Pend.ckpt hn (Pend.ckpt hn ?_))
  refine Pend.pressureAndEnergies hn (fun _ _ _ h => hJ _ _ _ h) (Safe.enter (Pend.ckpt hn (Pend.ckpt hn ?_)))
  refine Pend.act hn (fun _ _ _ => trivial) (fun _ _ => Safe.enter (Pend.barrier hn (Safe.enter ?_)))
  exact Pend.ckpt hn (preconditionerBlock_safe e l hn hu (fun _ _ h => h) (fun _ _ h => h))

theorem jacobianBlock_safe (hn : 0 < n) (hu : Uniform l)
    (hJ : ∀ s v, J s → J { s with restart := v }) :
    Pend Together s J [] (fun i => jacobianBlock e (l i)) := by
  unfold jacobianBlock computeJacobian
  refine Pend.act hn (fun i t h => ?_) (fun _ _ => Safe.enter (Pend.ckpt hn (Pend.rd (by simp) ?_)))
  · split
    · exact hJ t _ h
    · exact h
  refine Pend.ite (fun _ => Pend.retTogether hn _) (fun _ => Pend.ckpt hn (Pend.ite (fun _ => ?_) (fun _ => ?_)))
  · exact Pend.computeInitialVolume hn (fun _ _ h => h)
      (Safe.enter (fieldBlock_safe e l hn hu (fun _ _ _ h => h)))
  · exact fieldBlock_safe e l hn hu (fun _ _ _ h => h)

theorem update_safe (hn : 0 < n) (hu : Uniform l) (s : Sh R) :
    Safe Together s (fun i => update e (l i)) := by
  unfold update
  refine Safe.enter (Pend.ckpt hn (Pend.barriers hn _ fun s => Pend.ckpt hn (Pend.rd (by simp) ?_)))
  refine Pend.ite (fun _ => ?_) (fun _ => jacobianBlock_safe e l hn hu (fun _ _ h => h))
  unfold rzConIntoVolume
  exact Pend.barrier hn (Safe.enter (jacobianBlock_safe e l hn hu (fun _ _ h => h)))

end Verif.Team
