import Verif.Common.Outcome
import Mathlib.Analysis.Real.Pi.Bounds
import Mathlib.Algebra.BigOperators.Intervals

/-!
# Model of the SIMSOPT wrapper, `src/vmecpp/simsopt_compat.py:85-578`

The solver, the SIMSOPT surface classes and the file writer are parameters. `B` is the type of boundary surfaces, `C` of
boundary coefficients, `O` of all other input, `W` of results.
-/
namespace Verif.PySimsopt
open Verif

/-- the scalars that are degrees of freedom, 345-368: `delt, tcon0, phiedge, curtor, gamma` -/
abbrev Dofs := List ℝ

/-- what `vmecpp.run` gets: resolution, boundary coefficients, axis, degrees of freedom, the rest of the input -/
structure Input (C O : Type) where
  mpol : Int
  ntor : Int
  coeffs : C
  axis : List ℝ
  dofs : Dofs
  other : O

/-- external functions: the transfer of a surface to coefficients at the resolution of the input
    (`to_RZFourier().copy()`, `change_resolution`, `get_rc`, ... 482-508), the surface of a loaded input (147-180), the
    surface after a change of resolution (`_resize_surface_rzfourier`, 456-464), the resized input
    (`_set_mpol_ntor`; the boundary coefficients are overwritten before they are used again), the solver (with the output it may restart from) and the file writer -/
structure Ext (B C O W : Type) where
  fit : Int → Int → B → C
  load : Int → Int → C → B
  resizeB : Int → Int → B → B
  resizeO : Int → Int → O → O
  resizeA : Int → List ℝ → List ℝ
  lastStage : O → O
  solve : Input C O → Option W → Outcome W
  save : W → Outcome Unit

/-- the object -/
structure Vmec (B C O W : Type) where
  boundary : B
  indata : Input C O
  wout : Option W
  runnable : Bool
  need_to_run_code : Bool
  keep_all_files : Bool
  iter : Int

variable {B C O W : Type} (E : Ext B C O W)

/-- `__init__` with an input file, 125-180, 196-209; `Optimizable.__init__` calls `recompute_bell` -/
def initInput (I : Input C O) (keep : Bool) : Vmec B C O W :=
  ⟨E.load I.mpol I.ntor I.coeffs, I, none, true, true, keep, -1⟩

/-- `set_indata`, 466-531: boundary and axis are overwritten, also if they have not changed -/
def setIndata (v : Vmec B C O W) : Outcome (Vmec B C O W) :=
  if !v.runnable then .throws "RuntimeError: Cannot access indata"
  else .ok { v with indata := { v.indata with
    coeffs := E.fit v.indata.mpol v.indata.ntor v.boundary
    axis := v.indata.axis.map (fun _ => 0) } }

/-- the input handed to the solver: a restart only runs the last of the stages, 248-254 -/
def solverInput (restart : Option W) (I : Input C O) : Input C O :=
  match restart with
  | none => I
  | some _ => { I with other := E.lastStage I.other }

/-- the end of `run`, 265-277, after the file has been written or not -/
def afterSave (v : Vmec B C O W) (o : Outcome Unit) : Vmec B C O W × Outcome Unit :=
  match o with
  | .ok () => ({ v with need_to_run_code := false }, .ok ())
  | .throws m => (v, .throws m)
  | _ => (v, .throws "unreachable")

/-- `run` after the call of the solver, 258-277 -/
def afterSolve (v : Vmec B C O W) (o : Outcome W) : Vmec B C O W × Outcome Unit :=
  match o with
  | .ok w => afterSave { v with wout := some w } (if v.keep_all_files then E.save w else .ok ())
  | .throws m => (v, .throws m)
  | _ => (v, .throws "RuntimeError")

/-- `run`, 214-277: the object afterwards and how the call ended -/
def run (restart : Option W) (v : Vmec B C O W) : Vmec B C O W × Outcome Unit :=
  if !v.need_to_run_code then (v, .ok ())
  else if !v.runnable then (v, .throws "RuntimeError: Cannot run a Vmec object that was initialized from a wout file.")
  else
    let v1 := { v with iter := v.iter + 1 }
    match setIndata E v1 with
    | .ok v2 => afterSolve E v2 (E.solve (solverInput E restart v2.indata) restart)
    | .throws m => (v1, .throws m)
    | _ => (v1, .throws "unreachable")

/-- `aspect`, `volume`, `iota_axis`, ... 294-424: `run()`, then a number of the result -/
def query {α : Type} (g : W → α) (v : Vmec B C O W) : Vmec B C O W × Outcome α :=
  let r := run E none v
  match r.2 with
  | .ok () => match r.1.wout with
    | some w => (r.1, .ok (g w))
    | none => (r.1, .throws "AssertionError")
  | .throws m => (r.1, .throws m)
  | _ => (r.1, .throws "unreachable")

/-- what a user or an optimiser does to the object between two queries -/
inductive Op (B W : Type)
  /-- a change of the degrees of freedom of the surface: SIMSOPT calls `recompute_bell`, 211-212 -/
  | moveBoundary (b : B)
  /-- the `boundary` setter with another surface, 430-437 -/
  | setBoundary (b : B)
  /-- `set_dofs`, 360-368 -/
  | setDofs (x : Dofs)
  /-- `set_mpol_ntor`, 553-578; on an object from an output file there is no `indata` and it raises -/
  | setMpolNtor (mpol ntor : Int)
  /-- `run(restart_from=...)` -/
  | run (restart : Option W)
  /-- `get_input`, `write_input`, 533-551 -/
  | getInput

/-- the object after an operation; operations that raise leave it as far as they came -/
def step (op : Op B W) (v : Vmec B C O W) : Vmec B C O W :=
  match op with
  | .moveBoundary b => { v with boundary := b, need_to_run_code := true }
  | .setBoundary b => { v with boundary := b, need_to_run_code := true }
  | .setDofs x => if v.runnable then { v with need_to_run_code := true, indata := { v.indata with dofs := x } } else v
  | .setMpolNtor mpol ntor =>
    if v.runnable then
      { v with
        indata := { v.indata with
          mpol := mpol, ntor := ntor, axis := E.resizeA ntor v.indata.axis, other := E.resizeO mpol ntor v.indata.other }
        boundary := E.resizeB mpol ntor v.boundary
        need_to_run_code := true }
    else v
  | .run restart => (run E restart v).1
  | .getInput => match setIndata E v with
    | .ok v' => v'
    | _ => v

/-- a history of operations -/
def steps (ops : List (Op B W)) (v : Vmec B C O W) : Vmec B C O W := ops.foldl (fun v op => step E op v) v

/-- the user assigns to a field of `vmec.indata`, a public attribute; nothing rings the bell -/
def editOther (o : O) (v : Vmec B C O W) : Vmec B C O W := { v with indata := { v.indata with other := o } }

/-! ## numbers computed from a result -/

/-- `_set_grid`, 287-292: `s_half_grid[j]` for `ns` surfaces -/
noncomputable def sHalfGrid (ns : Nat) (j : Nat) : ℝ := (j + 1 : ℝ) / (ns - 1) - 1 / 2 * (1 / (ns - 1) - 0)

/-- `mean_iota`, 318-325: `np.mean(iotas[1:])` -/
noncomputable def meanIota (ns : Nat) (iotas : Nat → ℝ) : ℝ := (∑ j ∈ Finset.range (ns - 1), iotas (j + 1)) / ((ns - 1 : Nat) : ℝ)

/-- `vacuum_well`, 395-408; `gmnc00` is row 0 of `gmnc` -/
noncomputable def vacuumWell (ns : Nat) (gmnc00 : Nat → ℝ) : ℝ :=
  let dVds := fun j => 4 * Real.pi * Real.pi * |gmnc00 (j + 1)|
  let dVds_s0 := 1.5 * dVds 0 - 0.5 * dVds 1
  let dVds_s1 := 1.5 * dVds (ns - 2) - 0.5 * dVds (ns - 3)
  (dVds_s0 - dVds_s1) / dVds_s0

/-- `external_current`, 410-424 -/
noncomputable def externalCurrent (ns : Nat) (bvco : Nat → ℝ) : ℝ :=
  let b := bvco (ns - 1) * 1.5 - bvco (ns - 2) * 0.5
  let mu0 := 4 * Real.pi * 1.0e-7
  2 * Real.pi * b / mu0

end Verif.PySimsopt
