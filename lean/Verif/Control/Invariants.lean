import Verif.Control.Lemmas
import Verif.Control.Spec
import Mathlib.Tactic.SplitIfs
import Mathlib.Tactic.Positivity

/-!
# Invariants of the primitive steps (helper file)
-/
namespace Verif.Control
open Verif

variable {X V : Type}

/-- every event satisfies `P` with respect to what happened before it -/
def All (P : Ev X V → List (Ev X V) → Prop) : List (Ev X V) → Prop
  | [] => True
  | a :: t => P a t ∧ All P t

theorem All.split {P : Ev X V → List (Ev X V) → Prop} {h : List (Ev X V)} (ha : All P h)
    {later earlier : List (Ev X V)} {ev : Ev X V} (e : h = later ++ ev :: earlier) :
    P ev earlier := by
  subst e
  induction later with
  | nil => exact ha.1
  | cons a t ih => exact ih ha.2

macro "prim_simp" : tactic => `(tactic|
  try simp only [beginUpdate, evalBad, evalFailed, St.emit, vacuumSchedule, vacuumInterval,
      vacuumSolved, setResiduals, hugeForces, rollbackJacobian, rollbackProgress, saveState,
      convergence, timeStep, axisRetry, stepReset, restartIteration, giveUpCheck, bestResiduals,
      vacuumActivate])

/-! ## geometry, velocity, saved state -/

/-- local condition for the geometry history -/
def GeomOk (e : Env X V) (b x0 : X) (v0 : V) : Ev X V → List (Ev X V) → Prop
  | .evaluate x, t => x = e.mask (geometry x0 t)
  | .advance dt x v, t => ∃ n hist, (x, v) = e.adv n hist dt (geometry x0 t) (velocity v0 t)
  | .restore x v, t => x = lastSaved b t ∧ v = e.zeroV
  | .save x, t => x = geometry x0 t
  | _, _ => True

structure GeomInv (e : Env X V) (b x0 : X) (v0 : V) (s : St X V) : Prop where
  x : s.x = geometry x0 s.log
  v : s.v = velocity v0 s.log
  backup : s.backup = lastSaved b s.log
  all : All (GeomOk e b x0 v0) s.log

theorem prim_geom (e : Env X V) (b x0 : X) (v0 : V) (s s' : St X V) (h : Prim e s s')
    (hs : GeomInv e b x0 v0 s) : GeomInv e b x0 v0 s' := by
  obtain ⟨h1, h2, h3, h4⟩ := hs
  cases h <;> prim_simp <;> (try split_ifs) <;> constructor <;>
    simp_all [geometry, velocity, lastSaved, All, GeomOk]
  exact ⟨_, _, rfl⟩

/-! ## time step -/

def StepOk (e : Env X V) : Ev X V → List (Ev X V) → Prop
  | .advance dt _ _, _ => 0 < dt ∧ dt ≤ e.delt
  | _, _ => True

structure StepInv (e : Env X V) (s : St X V) : Prop where
  pos : 0 < s.delt0r
  le : s.delt0r ≤ e.delt
  all : All (StepOk e) s.log

theorem resetScale_bounds (n : Int) : 0 < resetScale n ∧ resetScale n ≤ 1 := by
  unfold resetScale
  split <;> constructor <;> norm_num

theorem prim_step (e : Env X V) (hd : 0 < e.delt) (s s' : St X V) (h : Prim e s s')
    (hs : StepInv e s) : StepInv e s' := by
  obtain ⟨h1, h2, h3⟩ := hs
  cases h <;> prim_simp <;> (try split_ifs) <;> constructor <;>
    simp_all [All, StepOk]
  case rollJ.pos q hq => rcases hq with rfl | rfl <;> norm_num
  case rollJ.le q hq => rcases hq with rfl | rfl <;> linarith
  case rollP.pos q hq => rcases hq with rfl | rfl <;> norm_num
  case rollP.le q hq =>
    rcases hq with rfl | rfl
    · linarith
    · rw [div_le_iff₀ (by norm_num)]; linarith
  case reset.pos => exact (resetScale_bounds _).1
  case reset.le => exact (resetScale_bounds _).2

/-! ## bad-Jacobian counter -/

def CntOk : Ev X V → List (Ev X V) → Prop
  | .counter n, t => counterValue t < n
  | .axisGuess, t => counterValue t = 0 ∧ .axisGuess ∉ t
  | .stepReset n, t => (n = 25 ∨ n = 50) ∧ .stepReset n ∉ t
  | .giveUp, t => 75 ≤ counterValue t
  | _, _ => True

structure CntInv (s : St X V) : Prop where
  val : s.ijacob = counterValue s.log
  nonneg : 0 ≤ s.ijacob
  axis : s.ijacob = 0 → .axisGuess ∉ s.log
  r25 : s.ijacob ≤ 25 → .stepReset 25 ∉ s.log
  r50 : s.ijacob ≤ 50 → .stepReset 50 ∉ s.log
  all : All CntOk s.log

theorem prim_cnt (e : Env X V) (s s' : St X V) (h : Prim e s s')
    (hs : CntInv s) : CntInv s' := by
  obtain ⟨h1, h2, h3, h4, h5, h6⟩ := hs
  cases h <;> prim_simp <;> (try split_ifs) <;> constructor <;>
    simp_all [All, CntOk, counterValue]
  all_goals first
    | omega
    | (intro hh; omega)
    | (intro hh; exact h4 (by omega))
    | (intro hh; exact h5 (by omega))
    | exact h4 (by omega)
    | exact h5 (by omega)
    | (rename_i hr; rcases hr with hr | hr <;> rw [hr] <;>
        first
        | exact h4 (by omega)
        | exact h5 (by omega)
        | (intro hh; exact ⟨by omega, h5 (by omega)⟩)
        | (intro hh; omega))
    | skip

/-! ## results and advances -/

def ResOk : Ev X V → List (Ev X V) → Prop
  | .advance _ _ _, t => ∀ a b c, lastResult t = some (.residuals a b c) →
      a.isFinite = true ∧ b.isFinite = true ∧ c.isFinite = true
  | _, _ => True

structure ResInv (s : St X V) : Prop where
  val : ∀ a b c, lastResult s.log = some (.residuals a b c) →
    s.fsqr = a ∧ s.fsqz = b ∧ s.fsql = c
  all : All ResOk s.log

theorem prim_res (e : Env X V) (s s' : St X V) (h : Prim e s s')
    (hs : ResInv s) : ResInv s' := by
  obtain ⟨h1, h2⟩ := hs
  cases h <;> prim_simp <;> (try split_ifs) <;> constructor <;>
    (try first | exact h1 | exact h2 | simp_all [All, ResOk, lastResult])
  rename_i hf
  intro a b c hl
  obtain ⟨rfl, rfl, rfl⟩ := h1 a b c hl
  exact hf

/-! ## vacuum state -/

def VacOk (v0 : VacState) : Ev X V → List (Ev X V) → Prop
  | .vac a b sum, t => a = vacuumState v0 t ∧ b = a.succ ∧ a ≠ .active ∧
      (a = .off → D.lt sum (.fin (1 / 1000)) = true)
  | _, _ => True

structure VacInv (v0 : VacState) (s : St X V) : Prop where
  val : s.vac = vacuumState v0 s.log
  all : All (VacOk v0) s.log

theorem prim_vac (e : Env X V) (v0 : VacState) (s s' : St X V) (h : Prim e s s')
    (hs : VacInv v0 s) : VacInv v0 s' := by
  obtain ⟨h1, h2⟩ := hs
  cases h <;> prim_simp <;> (try split_ifs) <;> constructor <;>
    simp_all [All, VacOk, vacuumState, VacState.succ]
  · rw [← h1]; simp
  · rw [← h1]; simp

/-! ## vacuum update interval -/

theorem newNvacskip_le (d : D) : newNvacskip d ≤ 10 := by
  unfold newNvacskip
  split
  · rename_i q hq
    have h1 : (1 / 10 : ℚ) ≤ q := by
      unfold D.stdMax at hq
      split at hq
      · rename_i hlt
        cases d <;> simp_all [D.scale, D.lt]
        linarith
      · simp at hq; linarith
    have h2 : 1 / q ≤ 10 := by
      rw [div_le_iff₀ (by linarith)]; linarith
    have h3 : ((1 / q).floor : ℚ) ≤ 1 / q := Rat.floor_le _
    have : ((1 / q).floor : ℚ) ≤ (10 : ℤ) := by push_cast; linarith
    exact_mod_cast this
  · omega
  · omega

def IntervalEv (n0 : Int) : Ev X V → List (Ev X V) → Prop
  | .interval n, t => intervalValue n0 t ≤ n ∧ n ≤ max n0 10
  | _, _ => True

structure IntervalInv (n : Int) (s : St X V) : Prop where
  lo : n ≤ s.nvacskip
  hi : s.nvacskip ≤ max n 10
  val : s.nvacskip = intervalValue n s.log
  all : All (IntervalEv n) s.log

theorem prim_interval (e : Env X V) (n : Int) (s s' : St X V) (h : Prim e s s')
    (hs : IntervalInv n s) : IntervalInv n s' := by
  obtain ⟨h1, h2, h3, h4⟩ := hs
  have h5 := newNvacskip_le (s.fsqr.add s.fsqz)
  cases h <;> prim_simp <;> (try split_ifs) <;> constructor <;>
    simp_all [All, IntervalEv, intervalValue]
  all_goals omega

end Verif.Control
