import Verif.Common.Mem
import Verif.Common.Lawful
import Verif.Fourier.Model
import Verif.HotRestart.Model

/-!
# Model of `src/vmecpp/_continuation.py`

Floating point numbers are reals; an exception is `status`. `np.interp`, `np.linspace` and `np.sqrt` are
modelled by what NumPy documents.
-/
namespace Verif.Contin
open Verif Verif.Fourier Verif.HotRestart

abbrev Table := List (Int × Int)

/-- look-up in `src_index`, `_continuation.py:164-166,169`: the dictionary keeps the last position of a
    repeated mode -/
def srcIndex (src : Table) (key : Int × Int) : Option Int :=
  src.zipIdx.foldl (fun acc p => if p.1 = key then some (p.2 : Int) else acc) none

/-- body of the loop of `_remap_modes`, 168-171; `values[j]` beyond the last row raises `IndexError` -/
def remapStep (values : Verif.Mat ℝ) (src : Table) (out : Verif.Mat ℝ) (p : (Int × Int) × Nat) :
    Outcome (Verif.Mat ℝ) :=
  match srcIndex src p.1 with
  | none => .ok out
  | some j =>
    if j < values.rows then .ok { out with val := upd out.val (p.2 : Int) (values.val j) }
    else .status "IndexError"

/-- `_remap_modes`, 151-172 (`xm` and `xn` are one list of pairs, so the `strict` check of `zip` is not
    modelled) -/
def remapModes (values : Verif.Mat ℝ) (src dst : Table) : Outcome (Verif.Mat ℝ) :=
  dst.zipIdx.foldlM (remapStep values src) ⟨dst.length, values.cols, fun _ _ => 0⟩

/-- length of `values[:k]` -/
def sliceLen (size k : Int) : Int := if 0 ≤ k then min size k else max 0 (size + k)

/-- `_remap_axis`, 175-182, with `right_pad`, `_util.py:434-441` -/
def remapAxis (values : Vec ℝ) (ntor_new : Int) : Vec ℝ :=
  let len := sliceLen values.size (ntor_new + 1)
  ⟨max len (ntor_new + 1), fun i => if i < len then values.val i else 0⟩

/-- `np.interp(x, xp, fp)` for `n` increasing sample points -/
noncomputable def npInterp (n : Int) (xp fp : Int → ℝ) (x : ℝ) : ℝ :=
  let j : Int := forRange 0 n (fun i (acc : Int) => if xp i ≤ x then i else acc) (-1)
  if j = -1 then fp 0
  else if j ≥ n - 1 then fp (n - 1)
  else (fp (j + 1) - fp j) / (xp (j + 1) - xp j) * (x - xp j) + fp j

/-- `np.linspace(0, 1, ns)[j]` -/
noncomputable def linspace (ns j : Int) : ℝ := (j : ℝ) / ((ns : ℝ) - 1)

/-- `old_scale`, `new_scale`, 127-133 -/
noncomputable def scale (ns j : Int) : ℝ := 1 / Real.sqrt (linspace ns (if j = 0 then 1 else j))

/-- one row of `_radial_interpolate_geometry`, 136-147 -/
noncomputable def geomRow (ns_old ns_new : Int) (m : Int) (row : Int → ℝ) (j : Int) : ℝ :=
  let odd := m % 2 = 1
  let radial : Int → ℝ := if odd then fun i => row i * scale ns_old i else row
  let radial : Int → ℝ := if odd ∧ 3 ≤ ns_old then upd radial 0 (2 * radial 1 - radial 2) else radial
  let v := npInterp ns_old (fun i => Real.sqrt (linspace ns_old i)) radial (Real.sqrt (linspace ns_new j))
  if odd then (if j = 0 then 0 else v / scale ns_new j) else v

/-- `_radial_interpolate_geometry`, 103-148; grids with fewer than two surfaces raise an exception at
    `old_scale[1]` or `new_scale[1]` -/
noncomputable def radialInterpolateGeometry (values : Verif.Mat ℝ) (xm : Int → Int) (ns_new : Int) :
    Outcome (Verif.Mat ℝ) :=
  let ns_old := values.cols
  if ns_old = ns_new then .ok values
  else if ns_old < 2 ∨ ns_new < 2 then .status "IndexError"
  else .ok ⟨values.rows, ns_new, fun i j => geomRow ns_old ns_new (xm i) (values.val i) j⟩

/-- `_radial_interpolate` of a one-dimensional array, 79-95; a target with no surfaces or NaN is not considered -/
noncomputable def radialInterpolate (values : Vec ℝ) (ns_new : Int) : Vec ℝ :=
  if values.size = ns_new then values
  else ⟨ns_new, fun j => npInterp values.size (linspace values.size) values.val (linspace ns_new j)⟩

/-- the fields of the output that `interpolate_solution` touches; `geometry` are the arrays of
    `_STATE_GEOMETRY_FIELDS`, `axis` those of `_WOUT_AXIS_FIELDS`, `other` the remaining one-dimensional
    arrays (two-dimensional ones are treated row by row in the same way and are left out) -/
structure Wout where
  nfp : Int
  ns : Int
  mpol : Int
  ntor : Int
  mnmax : Int
  modes : Table
  geometry : List (String × Option (Verif.Mat ℝ))
  axis : List (String × Option (Vec ℝ))
  other : List (String × Vec ℝ)

/-- the part of `VmecOutput` that matters for a restart: the input it claims to belong to and the `wout` -/
structure Output where
  input : RunSpec
  wout : Wout

/-- one geometry field, 213-219 -/
noncomputable def geometryField (src dst : Table) (ns_new : Int) (f : String × Option (Verif.Mat ℝ)) :
    Outcome (String × Option (Verif.Mat ℝ)) :=
  match f.2 with
  | none => .ok f
  | some val => do
    let remapped ← remapModes val src dst
    let r ← radialInterpolateGeometry remapped (fun i => (dst.getD i.toNat (0, 0)).1) ns_new
    .ok (f.1, some r)

/-- `interpolate_solution`, 185-258. `ns_array[-1]` of an empty array raises `IndexError`. The number of
    field periods of the target is not read. -/
noncomputable def interpolateSolution (source : Output) (target : RunSpec) : Outcome Output := do
  let wout := source.wout
  let nfp := wout.nfp
  match target.ns_array.getLast? with
  | none => .status "IndexError"
  | some ns_new =>
    let dst := stateModeTable target.mpol target.ntor nfp
    let geometry ← wout.geometry.mapM (geometryField wout.modes dst ns_new)
    let axis := wout.axis.map (fun f => (f.1, f.2.map (fun v => remapAxis v target.ntor)))
    let other := wout.other.map (fun f =>
      if f.2.size ≠ 0 ∧ f.2.size = wout.ns then (f.1, radialInterpolate f.2 ns_new) else f)
    .ok ⟨target, ⟨nfp, ns_new, target.mpol, target.ntor, dst.length, dst, geometry, axis, other⟩⟩

/-- the resolution and limits of one step of a schedule -/
structure Step where
  ns : Int
  mpol : Int
  ntor : Int
  ftol : ℝ
  niter : Int

/-- `_step_input`, 261-294, as far as the restart check is concerned -/
def stepSpec (base : RunSpec) (s : Step) : RunSpec :=
  { base with mpol := s.mpol, ntor := s.ntor, ns_array := [s.ns] }

/-- `value: int | np.ndarray` -/
inductive Sched where
  | scalar (v : Int)
  | list (l : List Int)

/-- `_resolve`, 330-342 -/
def resolve (n : Nat) : Sched → Outcome (List Int)
  | .scalar v => .ok (List.replicate n v)
  | .list l => if l.length ≠ n then .status "ValueError" else .ok l

/-- `guess`, 359 -/
noncomputable def guessFor (target : RunSpec) : Option Output → Outcome (Option Output)
  | none => .ok none
  | some o => do
    let g ← interpolateSolution o target
    .ok (some g)

/-- the loop of `_run_fourier_continuation`, 349-366; `run` is the solver, given the step and the guess -/
noncomputable def runSteps (run : RunSpec → Step → Option Output → Outcome Output) (base : RunSpec) :
    List Step → Option Output → Outcome (Option Output)
  | [], out => .ok out
  | s :: rest, out => do
    let guess ← guessFor (stepSpec base s) out
    let o ← run (stepSpec base s) s guess
    runSteps run base rest (some o)

/-- element `i` of a Python list -/
def pyGet {α : Type} (l : List α) (i : Nat) : Outcome α :=
  match l[i]? with
  | some v => .ok v
  | none => .status "IndexError"

/-- the steps, 327-358: `ftol_schedule[i]` and `niter_schedule[i]` are looked up when the step starts; here
    the look-ups of all steps come first -/
def schedule (ns : List Int) (mpol ntor : Sched) (ftol : List ℝ) (niter : List Int) : Outcome (List Step) := do
  let mp ← resolve ns.length mpol
  let nt ← resolve ns.length ntor
  (List.range ns.length).mapM (fun i => do
    let a ← pyGet ns i
    let b ← pyGet mp i
    let c ← pyGet nt i
    let d ← pyGet ftol i
    let e ← pyGet niter i
    .ok ⟨a, b, c, d, e⟩)

end Verif.Contin
