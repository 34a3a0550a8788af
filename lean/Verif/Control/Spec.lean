import Verif.Control.Model

/-!
# Vocabulary for statements about the history of a stage

A history is a list of events, newest first: in `later ++ ev :: earlier`, `earlier` is what
happened before `ev`.
-/
namespace Verif.Control
open Verif

variable {X V : Type}

/-- number of force evaluations -/
def evaluations (h : List (Ev X V)) : Nat :=
  (h.filter (fun ev => match ev with | .evaluate _ => true | _ => false)).length

/-- the geometry saved most recently; `b` is the one saved before the history starts -/
def lastSaved (b : X) : List (Ev X V) → X
  | [] => b
  | .save x :: _ => x
  | _ :: t => lastSaved b t

/-- the geometry produced or used most recently -/
def geometry (x0 : X) : List (Ev X V) → X
  | [] => x0
  | .evaluate x :: _ => x
  | .advance _ x _ :: _ => x
  | .restore x _ :: _ => x
  | .reinit x :: _ => x
  | _ :: t => geometry x0 t

/-- the velocity produced most recently -/
def velocity (v0 : V) : List (Ev X V) → V
  | [] => v0
  | .advance _ _ v :: _ => v
  | .restore _ v :: _ => v
  | _ :: t => velocity v0 t

/-- the value of the bad-Jacobian counter -/
def counterValue : List (Ev X V) → Int
  | [] => 0
  | .counter n :: _ => n
  | _ :: t => counterValue t

/-- the result of the last finished force evaluation -/
def lastResult : List (Ev X V) → Option EvalKind
  | [] => none
  | .result k :: _ => some k
  | _ :: t => lastResult t

/-- the geometry of the last force evaluation -/
def lastEvaluated : List (Ev X V) → Option X
  | [] => none
  | .evaluate x :: _ => some x
  | _ :: t => lastEvaluated t

/-- what happened since the last force evaluation started -/
def sinceEvaluation : List (Ev X V) → List (Ev X V)
  | [] => []
  | .evaluate _ :: _ => []
  | ev :: t => ev :: sinceEvaluation t

/-- the vacuum state according to the history -/
def vacuumState (v0 : VacState) : List (Ev X V) → VacState
  | [] => v0
  | .vac _ b _ :: _ => b
  | _ :: t => vacuumState v0 t

/-- the vacuum update interval according to the history -/
def intervalValue (n0 : Int) : List (Ev X V) → Int
  | [] => n0
  | .interval n :: _ => n
  | _ :: t => intervalValue n0 t

def Ev.isRestore : Ev X V → Bool
  | .restore _ _ => true
  | _ => false

/-- number of force evaluations started after the bad-Jacobian counter had reached 75 -/
def evaluationsBeyond75 : List (Ev X V) → Nat
  | [] => 0
  | .evaluate _ :: t => evaluationsBeyond75 t + if 75 ≤ counterValue t then 1 else 0
  | _ :: t => evaluationsBeyond75 t

/-- the vacuum pressure was switched on and no rollback has followed yet -/
def softRestartPending : List (Ev X V) → Bool
  | [] => false
  | .vac _ .initialized _ :: _ => true
  | .restore _ _ :: _ => false
  | _ :: t => softRestartPending t

/-- the tolerance test on three residuals -/
def WithinTolerance (ftol a b c : D) : Prop :=
  (∃ q, a = .fin q) ∧ (∃ q, b = .fin q) ∧ (∃ q, c = .fin q) ∧
    a.le ftol = true ∧ b.le ftol = true ∧ c.le ftol = true

end Verif.Control
