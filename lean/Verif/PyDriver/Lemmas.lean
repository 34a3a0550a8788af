import Verif.PyDriver.Spec
import Verif.Control.Lemmas
import Mathlib.Tactic.Linarith

/-!
# Simulation of the C++ driver by the Python driver
-/
namespace Verif.PyDriver
open Verif Verif.Control

variable {X V : Type}

/-! ## histories -/

theorem actions_cons (ev : Ev X V) (h : List (Ev X V)) : actions (ev :: h) = push ev (actions h) := rfl

theorem push_save_twice (x : X) (l : List (Ev X V)) : push (.save x) (push (.save x) l) = push (.save x) l := by
  unfold push
  dsimp only
  rw [List.dropWhile_cons_of_pos rfl]
  congr 1
  induction l with
  | nil => rfl
  | cons a t ih =>
    cases a <;> simp [List.dropWhile]
    simpa [List.dropWhile] using ih

/-- the second history extends the first by quiet events -/
def Quiet (h h' : List (Ev X V)) : Prop := ∃ t, h' = t ++ h ∧ ∀ ev ∈ t, quiet ev = true

theorem Quiet.refl (h : List (Ev X V)) : Quiet h h := ⟨[], rfl, by simp⟩

theorem Quiet.cons {h h' : List (Ev X V)} (q : Quiet h h') {ev : Ev X V} (hq : quiet ev = true) : Quiet h (ev :: h') := by
  obtain ⟨t, rfl, ht⟩ := q
  refine ⟨ev :: t, rfl, ?_⟩
  intro a ha
  rcases List.mem_cons.1 ha with rfl | ha
  · exact hq
  · exact ht _ ha

theorem Quiet.trans {a b c : List (Ev X V)} (h1 : Quiet a b) (h2 : Quiet b c) : Quiet a c := by
  obtain ⟨t1, rfl, q1⟩ := h1
  obtain ⟨t2, rfl, q2⟩ := h2
  refine ⟨t2 ++ t1, by simp, ?_⟩
  intro ev h
  rcases List.mem_append.1 h with h | h
  · exact q2 _ h
  · exact q1 _ h

/-! ## the object -/

/-- same contents of the solver object as far as the forward model and the drivers look at it -/
structure Obj (s m : St X V) : Prop where
  x : s.x = m.x
  v : s.v = m.v
  backup : s.backup = m.backup
  fsqr : s.fsqr = m.fsqr
  fsqz : s.fsqz = m.fsqz
  fsql : s.fsql = m.fsql
  fsqr1 : s.fsqr1 = m.fsqr1
  fsqz1 : s.fsqz1 = m.fsqz1
  fsql1 : s.fsql1 = m.fsql1
  evals : s.evals = m.evals
  act : actions s.log = actions m.log

theorem Obj.fsq1 {s m : St X V} (h : Obj s m) : fsq1 s = fsq1 m := by unfold PyDriver.fsq1; rw [h.fsqr1, h.fsqz1, h.fsql1]

theorem Obj.fsq0 {s m : St X V} (h : Obj s m) : fsq0 s = fsq0 m := by unfold PyDriver.fsq0; rw [h.fsqr, h.fsqz, h.fsql]

/-- residual sums are not negative -/
def Pos (s : St X V) : Prop := isNeg (fsq1 s) = false ∧ isNeg (fsq0 s) = false

/-- the results of the forward model are not negative -/
def PosEnv (e : Env X V) : Prop := ∀ n, isNeg (D.add (D.add (e.phys n).fsqr1 (e.phys n).fsqz1) (e.phys n).fsql1) = false ∧
  isNeg (D.add (D.add (e.phys n).fsqr (e.phys n).fsqz) (e.phys n).fsql) = false

/-- fields of the state that the forward model leaves alone -/
structure Same (s t : St X V) : Prop where
  fsq : t.fsq = s.fsq
  res0 : t.res0 = s.res0
  res1 : t.res1 = s.res1
  delt0r : t.delt0r = s.delt0r
  ijacob : t.ijacob = s.ijacob
  iter1 : t.iter1 = s.iter1
  iter2 : t.iter2 = s.iter2
  status : t.status = s.status
  liter : t.liter = s.liter
  lreset : t.lreset = s.lreset
  interrupted : t.interrupted = s.interrupted
  damp : t.damp = s.damp

theorem update_fixed {e : Env X V} (h : e.lfreeb = false) (s : St X V) : update e s =
    if (e.phys s.evals).badJacobian then .ok (evalBad (beginUpdate e s)) false
    else if (s.iter2 - s.iter1).tmod 25 = 0 ∧ (e.phys s.evals).tconError then .err (evalFailed (beginUpdate e s)) true
    else finishUpdate (e.phys s.evals) (beginUpdate e s) false := by
  unfold update vacuumBlock
  simp only [h, Bool.false_eq_true, false_and, if_false]
  rfl

/-- result of the forward model on two objects with the same contents -/
inductive UpdRel (s m : St X V) : UpdRes X V → UpdRes X V → Prop
  | ok (s' m') (h : Obj s' m') (hr : s'.restart = m'.restart) (hs : Same s s') (hm : Same m m') (hp : Pos s → Pos s')
      (hh : s'.restart = .hugeInitialForces → s.iter2 = 1 ∧ D.lt (.fin 100) (fsq0 s') = true)
      (hn : s'.restart ≠ .badProgress) : UpdRel s m (.ok s' false) (.ok m' false)
  | err (s' m' r) (h : Obj s' m') (hs : Same s s') : UpdRel s m (.err s' r) (.err m' r)

theorem update_rel {e : Env X V} (hf : e.lfreeb = false) (hpe : PosEnv e) {s m : St X V} (h : Obj s m) (h0 : s.restart = .noRestart)
    (h0' : m.restart = .noRestart) (h1 : s.iter1 = m.iter1) (h2 : s.iter2 = m.iter2) :
    UpdRel s m (update e s) (update e m) := by
  rw [update_fixed hf, update_fixed hf, ← h.evals, ← h1, ← h2]
  have hb : Obj (beginUpdate e s) (beginUpdate e m) := by
    obtain ⟨a1, a2, a3, a4, a5, a6, a7, a8, a9, a10, a11⟩ := h
    constructor <;> simp only [beginUpdate, St.emit, actions_cons, a1, a2, a3, a4, a5, a6, a7, a8, a9, a10, a11]
  have hsb : Same s (beginUpdate e s) := by constructor <;> rfl
  split
  · refine .ok _ _ ?_ rfl ?_ ?_ (fun h => h) (fun h => ?_) ?_
    · obtain ⟨a1, a2, a3, a4, a5, a6, a7, a8, a9, a10, a11⟩ := hb
      constructor <;> simp only [evalBad, St.emit, actions_cons, a1, a2, a3, a4, a5, a6, a7, a8, a9, a10, a11]
    · constructor <;> rfl
    · constructor <;> rfl
    · cases h
    · intro h; cases h
  · split
    · refine .err _ _ _ ?_ ?_
      · obtain ⟨a1, a2, a3, a4, a5, a6, a7, a8, a9, a10, a11⟩ := hb
        constructor <;> simp only [evalFailed, St.emit, actions_cons, a1, a2, a3, a4, a5, a6, a7, a8, a9, a10, a11]
      · constructor <;> rfl
    · have hr : Obj (setResiduals (e.phys s.evals) (beginUpdate e s)) (setResiduals (e.phys s.evals) (beginUpdate e m)) := by
        obtain ⟨a1, a2, a3, a4, a5, a6, a7, a8, a9, a10, a11⟩ := hb
        constructor <;> simp only [setResiduals, St.emit, actions_cons, a1, a2, a3, a10, a11]
      unfold finishUpdate
      dsimp only
      split
      · exact .err _ _ _ hr (by constructor <;> rfl)
      · have e1 : ∀ t : St X V, hugeForces t = if t.iter2 = 1 ∧ D.lt (.fin 100) (fsq0 t) then { t with restart := .hugeInitialForces } else t :=
          fun t => rfl
        have e2 : (setResiduals (e.phys s.evals) (beginUpdate e s)).iter2 = (setResiduals (e.phys s.evals) (beginUpdate e m)).iter2 := h2
        rw [e1, e1]
        by_cases hh : (setResiduals (e.phys s.evals) (beginUpdate e s)).iter2 = 1 ∧
            D.lt (.fin 100) (fsq0 (setResiduals (e.phys s.evals) (beginUpdate e s))) = true
        · rw [if_pos hh, if_pos (by rw [← e2, ← hr.fsq0]; exact hh)]
          refine .ok _ _ ?_ rfl (by constructor <;> rfl) (by constructor <;> rfl) (fun _ => hpe _) (fun _ => hh) (by simp)
          obtain ⟨a1, a2, a3, a4, a5, a6, a7, a8, a9, a10, a11⟩ := hr
          constructor <;> assumption
        · rw [if_neg hh, if_neg (by rw [← e2, ← hr.fsq0]; exact hh)]
          refine .ok _ _ hr (h0.trans h0'.symm) (by constructor <;> rfl) (by constructor <;> rfl) (fun _ => hpe _) ?_ ?_
          · intro h
            have : s.restart = .hugeInitialForces := h
            rw [h0] at this; cases this
          · intro h
            have : s.restart = .badProgress := h
            rw [h0] at this; cases this

end Verif.PyDriver
