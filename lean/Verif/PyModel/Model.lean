import Verif.Coeffs.Model
import Verif.Common.Outcome
import Mathlib.Analysis.SpecialFunctions.Sqrt

/-!
# Model of the state vector and the Hessian-vector product of `VmecModel`

`vmec/pybind11/pybind_vmec.cc:80-155` (`ActiveSpans`, `FlattenActive`, `UnflattenActive`), `:169-209` (`Create`: tolerance and iteration limit), `:232-277` (`Evaluate`), `:400-440` (`GetState`, `SetState`,
`GetForces`, `HessianVectorProduct`), `vmec/fourier_coefficients/fourier_coefficients.cc:17-59` (sizes) and the exits of `vmec/ideal_mhd_model/ideal_mhd_model.cc:559-700` (`update`) before the forces are
written.  Numbers are reals.  The forward model itself is a parameter.
-/
namespace Verif.PyModel
open Verif Verif.Coeffs

/-- the twelve coefficient arrays of a `FourierCoeffs`; an array that is not allocated is empty -/
abbrev Arrays := F → List ℝ

/-- `ActiveSpans(FourierGeometry&, ...)`, `pybind_vmec.cc:84-99`; `rmncc` is the array `rcc` and so on (`fourier_geometry.cc:18-31`) -/
def geometrySpans (lthreed lasym : Bool) : List F :=
  [.rcc] ++ (if lthreed then [.rss] else []) ++ (if lasym then [.rsc] else []) ++ (if lasym && lthreed then [.rcs] else []) ++
  [.zsc] ++ (if lthreed then [.zcs] else []) ++ (if lasym then [.zcc] else []) ++ (if lasym && lthreed then [.zss] else []) ++
  [.lsc] ++ (if lthreed then [.lcs] else []) ++ (if lasym then [.lcc] else []) ++ (if lasym && lthreed then [.lss] else [])

/-- `ActiveSpans(FourierForces&, ...)`, `pybind_vmec.cc:101-116`; `frcc` is the array `rcc` and so on (`fourier_forces.cc:16-27`) -/
def forceSpans (lthreed lasym : Bool) : List F :=
  [.rcc] ++ (if lthreed then [.rss] else []) ++ (if lasym then [.rsc] else []) ++ (if lasym && lthreed then [.rcs] else []) ++
  [.zsc] ++ (if lthreed then [.zcs] else []) ++ (if lasym then [.zcc] else []) ++ (if lasym && lthreed then [.zss] else []) ++
  [.lsc] ++ (if lthreed then [.lcs] else []) ++ (if lasym then [.lcc] else []) ++ (if lasym && lthreed then [.lss] else [])

/-- `FlattenActive`, `pybind_vmec.cc:118-131`: the loop that copies one span after the other -/
def flattenActive (spans : List F) (x : Arrays) : List ℝ := spans.foldl (fun out c => out ++ x c) []

/-- the copy loop of `UnflattenActive`, `pybind_vmec.cc:148-153` -/
def unflattenLoop (flat : List ℝ) : List F → ℕ → Arrays → Arrays
  | [], _, x => x
  | c :: cs, offset, x =>
    let n := (x c).length
    unflattenLoop flat cs (offset + n) (Function.update x c ((flat.drop offset).take n))

/-- `UnflattenActive`, `pybind_vmec.cc:133-154` -/
def unflattenActive (spans : List F) (x : Arrays) (flat : List ℝ) : Outcome Arrays :=
  let total := spans.foldl (fun t c => t + (x c).length) 0
  if flat.length ≠ total then .throws "VmecModel.set_state: state vector has wrong length" else .ok (unflattenLoop flat spans 0 x)

/-- the sizes that the constructor of `FourierCoeffs` allocates, `fourier_coefficients.cc:17-59` -/
def allocated (mpol ntor nsMin nsMax nsMaxF1 ns : ℕ) (lthreed lasym : Bool) (c : F) : ℕ :=
  let jMaxIncludingBoundary := if nsMaxF1 = ns then ns else nsMax
  let num := (jMaxIncludingBoundary - nsMin) * mpol * (ntor + 1)
  match c with
  | .rcc | .zsc | .lsc => num
  | .rss | .zcs | .lcs => if lthreed then num else 0
  | .rsc | .zcc | .lcc => if lasym then num else 0
  | .rcs | .zss | .lss => if lasym then (if lthreed then num else 0) else 0

/-- the index that selects tolerance and iteration limit, `pybind_vmec.cc:190-197` and `:367-374` -/
def stepIndex (nsArray : List Int) (ns : Int) : Int :=
  match nsArray.findIdx? (· == ns) with
  | some i => i
  | none => (nsArray.length : Int) - 1

/-- `pybind_vmec.cc:198-203`, `:375-380`: an entry that does not exist leaves the old value; a read outside of the array would be undefined -/
def pick {α : Type} (arr : List α) (idx : Int) (old : α) : Outcome α :=
  if 0 ≤ idx ∧ idx < arr.length then (if idx < 0 then .ub "index" else (arr[idx.toNat]?.map Outcome.ok).getD (.ub "index")) else .ok old

/-- what `IdealMhdModel::update` does up to the point where the forces are written: `maskGeometryAbove` on the state (`ideal_mhd_model.cc:570-572`), an exit on a bad Jacobian (`:604-612`), an error from
    the constraint force multiplier (`:716-719`), and the forces; `M` is everything that survives from one evaluation to the next -/
structure Forward (M : Type) where
  mask : Arrays → Arrays
  badJacobian : Arrays → Bool
  error : Arrays → M → Option String
  forces : Arrays → M → Arrays
  after : Arrays → M → M

/-- the members that the routines below read and write -/
structure Mdl (M : Type) where
  x : Arrays
  f : Arrays
  bad : Bool
  mem : M

/-- a call: how it ends, and the state it leaves behind -/
abbrev Res (M α : Type) := Outcome α × Mdl M

/-- `Evaluate(2, 2, false)`, `pybind_vmec.cc:232-277`: the restart reason is cleared; an error is thrown -/
def evaluate {M : Type} (w : Forward M) (s : Mdl M) : Res M Unit :=
  let x := w.mask s.x
  if w.badJacobian x then (.ok (), { s with x := x, bad := true, mem := w.after x s.mem })
  else match w.error x s.mem with
    | some e => (.throws e, { s with x := x, bad := false, mem := w.after x s.mem })
    | none => (.ok (), { x := x, f := w.forces x s.mem, bad := false, mem := w.after x s.mem })

/-- Euclidean norm, `v.norm()` -/
noncomputable def norm (v : List ℝ) : ℝ := Real.sqrt (v.map fun a => a ^ 2).sum

/-- `x + t * v` -/
def axpy (t : ℝ) (v x : List ℝ) : List ℝ := List.zipWith (fun a b => a + t * b) x v

/-- `(fp - fm) / (2 * eps)` -/
noncomputable def quotient (eps : ℝ) (fp fm : List ℝ) : List ℝ := List.zipWith (fun a b => (a - b) / (2 * eps)) fp fm

/-- sequencing: an exception leaves the state as it is at that point -/
def Res.bind {M α β : Type} (r : Res M α) (k : α → Mdl M → Res M β) : Res M β :=
  match r with
  | (.ok a, s) => k a s
  | (.status e, s) => (.status e, s)
  | (.abort e, s) => (.abort e, s)
  | (.throws e, s) => (.throws e, s)
  | (.ub e, s) => (.ub e, s)

/-- `SetState`, `pybind_vmec.cc:404-406` -/
def setState {M : Type} (spans : List F) (flat : List ℝ) (s : Mdl M) : Res M Unit :=
  match unflattenActive spans s.x flat with
  | .ok x => (.ok (), { s with x := x })
  | .status e => (.status e, s)
  | .abort e => (.abort e, s)
  | .throws e => (.throws e, s)
  | .ub e => (.ub e, s)

/-- `HessianVectorProduct`, `pybind_vmec.cc:418-437`; the sum of two vectors of different length is undefined (an assertion of Eigen, which is compiled out in release builds) -/
noncomputable def hessianVectorProduct {M : Type} (w : Forward M) (gs fs : List F) (epsRel : ℝ) (v : List ℝ) (s : Mdl M) : Res M (List ℝ) :=
  let x := flattenActive gs s.x
  let vnorm := norm v
  if vnorm = 0 then (.ok (List.replicate x.length 0), s)
  else
    let eps := epsRel * (1 + norm x) / vnorm
    if v.length ≠ x.length then (.ub "x + eps * v", s)
    else
      Res.bind (setState gs (axpy eps v x) s) fun _ s =>
      Res.bind (evaluate w s) fun _ s =>
      let fp := flattenActive fs s.f
      Res.bind (setState gs (axpy (-eps) v x) s) fun _ s =>
      Res.bind (evaluate w s) fun _ s =>
      let fm := flattenActive fs s.f
      Res.bind (setState gs x s) fun _ s =>
      (.ok (quotient eps fp fm), s)

end Verif.PyModel
