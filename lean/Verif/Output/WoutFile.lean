import Verif.Output.Wout
import Verif.Profiles.Model
import Verif.Control.Model

/-!
# Model of the scalars, profiles and histories of the output file

`vmec/output_quantities/output_quantities.cc:27-35` (`NonEmptyVectorOr`), `4119-4156` (`ComputeThreed1AxisGeometry`), `4346-4382`, `4407-4416`, `4447-4469` and
`4476-4531` of `ComputeWOutFileContents`.

Exact reals.  A vector is `Profiles.RVec`, a size and a function of the index.
-/
namespace Verif.Output
open Verif Verif.Profiles

/-- `NonEmptyVectorOr`, 29-35 -/
noncomputable def nonEmptyOr (c : RVec) (val : ℝ) : RVec := if c.n > 0 then c else { n := 1, v := fun _ => val }

/-- `PadVector`, 4363-4369: the elements behind the old size get the pad value -/
noncomputable def padVector (c : RVec) (target_size : Int) (pad_value : ℝ) : RVec :=
  if c.n < target_size then { n := target_size, v := fun i => if i < c.n then c.v i else pad_value } else c

/-- `wout.am`, `wout.ac`, `wout.ai`, 4349-4355 and 4371-4373 -/
noncomputable def woutCoef (c : RVec) : RVec := padVector (nonEmptyOr c 0) 21 0
/-- `wout.am_aux_s`, `wout.ac_aux_s`, `wout.ai_aux_s`, 4350-4356 and 4375-4379 -/
noncomputable def woutAuxS (c : RVec) : RVec := padVector (nonEmptyOr c (-1)) 101 (-1)
/-- `wout.am_aux_f`, `wout.ac_aux_f`, `wout.ai_aux_f`, 4351-4357 and 4376-4380 -/
noncomputable def woutAuxF (c : RVec) : RVec := padVector (nonEmptyOr c 0) 101 0

/-- `VmecStatusCode`, `common/util/util.cc:14-17` with the values of `common/util/util.h:148-159` -/
def statusCode : Control.VmecStatus → Int
  | .normal => 0
  | .badJacobian => 1
  | .jacobian75 => 4
  | .unrecoverable => 5
  | .success => 11

/-- `wout.ier_flag`, 4410-4416 -/
def ierFlag (st : Control.VmecStatus) : Int :=
  if st = .success then statusCode .normal else statusCode st

/-- one step of the assignment 4466-4469: the elements `a ≤ i < b` of the right-hand side are computed from the present contents and then stored.
    Eigen assigns a coefficient-wise expression without a temporary, element by element or in packets of ascending index. -/
noncomputable def wdotChunk (a b : Int) (w : Int → ℝ) : Int → ℝ := fun i => if a ≤ i ∧ i < b then (w i - w (i - 1)) / w i else w i
/-- the assignment 4466-4469 as a sequence of steps with the given lengths, starting at element `a` -/
noncomputable def wdotChunks : List ℕ → Int → (Int → ℝ) → Int → ℝ
  | [], _, w => w
  | k :: ks, a, w => wdotChunks ks (a + k) (wdotChunk a (a + k) w)
/-- `wout.wdot`, 4463-4470; `W` is `fc.mhd_energy`, `chunks` the lengths of the steps of the assignment (all 1 for scalar code) -/
noncomputable def wdot (size : Int) (chunks : List ℕ) (W : Int → ℝ) : Int → ℝ := if size > 1 then wdotChunks chunks 1 W else W

/-- `wout.fsqt`, 4450-4451 -/
noncomputable def fsqt (r z l : Int → ℝ) (i : Int) : ℝ := r i + z i + l i

/-- `wout.q_factor`, 4476 and 4484-4487 -/
noncomputable def qFactor (ns : Int) (dblMax : ℝ) (iotaf : Int → ℝ) : Int → ℝ :=
  forRange 0 ns (fun jF q => if iotaf jF ≠ 0 then upd q jF (1 / iotaf jF) else q) (fun _ => dblMax)

/-- `x = Zero(ns); x.tail(ns - 1) = h`, 4508-4521 -/
noncomputable def halfColumn (ns : Int) (h : Int → ℝ) : Int → ℝ := fun j => if j < ns - (ns - 1) then 0 else h (j - (ns - (ns - 1)))
/-- `wout.mass`, `wout.pres`, 4502-4507 -/
noncomputable def halfColumnMu (ns : Int) (mu_0 : ℝ) (h : Int → ℝ) : Int → ℝ :=
  forRange 0 (ns - 1) (fun jH a => upd a (jH + 1) (h jH / mu_0)) (fun _ => 0)

/-- `Threed1AxisGeometry` -/
structure AxisGeometry where
  raxis_symm : Int → ℝ
  zaxis_symm : Int → ℝ
  raxis_asym : Int → ℝ
  zaxis_asym : Int → ℝ

/-- `ComputeThreed1AxisGeometry`, 4119-4156; the asymmetric arrays have no elements without `lasym` -/
noncomputable def axisGeometry (s : Sizes.Sizes) (mscale nscale : Int → ℝ) (x : Coef → Int → ℝ) : AxisGeometry :=
  forRange 0 (s.ntor + 1) (fun n (a : AxisGeometry) =>
    let basis_scaling := mscale 0 * nscale n
    let tz := if s.lthreed then basis_scaling else 0
    let index := (0 * (s.ntor + 1) + n) * s.mpol + 0
    { raxis_symm := upd a.raxis_symm n (basis_scaling * x .rmncc index)
      zaxis_symm := if s.lthreed then upd a.zaxis_symm n (-tz * x .zmncs index) else a.zaxis_symm
      zaxis_asym := if s.lasym then upd a.zaxis_asym n (basis_scaling * x .zmncc index) else a.zaxis_asym
      raxis_asym := if s.lasym ∧ s.lthreed then upd a.raxis_asym n (-tz * x .rmncs index) else a.raxis_asym })
    ⟨fun _ => 0, fun _ => 0, fun _ => 0, fun _ => 0⟩

end Verif.Output
