import Verif.PyDriver.Model

/-!
# Vocabulary for comparing the two drivers

Histories are lists of events, newest first.
-/
namespace Verif.PyDriver
open Verif Verif.Control

variable {X V : Type}

/-- append an event to a list of actions: evaluations with their results, time steps, checkpoints, rollbacks and new initial
    geometries count, bookkeeping events do not; of two checkpoints in a row only the last one counts -/
def push (ev : Ev X V) (l : List (Ev X V)) : List (Ev X V) :=
  match ev with
  | .evaluate x => .evaluate x :: l
  | .result k => .result k :: l
  | .advance dt x v => .advance dt x v :: l
  | .restore x v => .restore x v :: l
  | .reinit x => .reinit x :: l
  | .save x => .save x :: l.dropWhile fun ev => match ev with | .save _ => true | _ => false
  | _ => l

/-- the actions of a history -/
def actions (h : List (Ev X V)) : List (Ev X V) := h.foldr push []

/-- an event of this kind asks for no force and moves no geometry along a force -/
def quiet : Ev X V → Bool
  | .evaluate _ => false
  | .result _ => false
  | .advance _ _ _ => false
  | .reinit _ => false
  | _ => true

/-- an event of this kind replaces the geometry by the rollback target -/
def rollsBack : Ev X V → Bool
  | .restore _ _ => true
  | _ => false

/-- how a solve ends -/
inductive Verdict where
  | converged
  /-- iterations used up -/
  | exhausted
  | failed
  deriving DecidableEq, Repr

/-- verdict of the C++ driver: return value of `SolveEquilibrium` and `status_` -/
def cppVerdict (r : StageRet × St X V) : Verdict :=
  match r.1 with
  | .done =>
    match r.2.status with
    | .success => .converged
    | .normal => .exhausted
    | _ => .failed
  | _ => .failed

/-- verdict of the Python driver: `IterationResult.converged`, `.failed`, or an exception -/
def pyVerdict (r : End × PSt X V) : Verdict :=
  match r.1 with
  | .returned => if r.2.converged then .converged else if r.2.failed then .failed else .exhausted
  | _ => .failed

/-- the style of the Python driver that corresponds to the setting of the C++ driver -/
def styleOf (e : Env X V) : Style := if e.parvmec then .parvmec else .vmec852

/-- a note that does not spoil the comparison -/
def harmless (zeroV : V) : Note V → Prop
  | .converged n => n < 75
  | .reguess v => v = zeroV
  | _ => False

end Verif.PyDriver
