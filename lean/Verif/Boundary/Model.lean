import Verif.Common.Fam
import Mathlib.Analysis.SpecialFunctions.Trigonometric.Basic
import Mathlib.Analysis.SpecialFunctions.Complex.Arg

/-!
# Model of the boundary setup

`cpp/vmecpp/vmec/boundaries/boundaries.cc`. Numbers are reals (no rounding).
-/
namespace Verif.Boundary
open Verif

/-- the arrays of class `Boundaries`, `boundaries.h` -/
inductive B where
  | rbcc | rbss | rbsc | rbcs | zbsc | zbcs | zbcc | zbss
  deriving DecidableEq

abbrev Arrays := B → Int → ℝ

/-- resolution and symmetry, `common/sizes/sizes.h`; `lthreed = ntor > 0` is set in `sizes.cc:90` -/
structure Size where
  mpol : Int
  ntor : Int
  lasym : Bool

def Size.lthreed (s : Size) : Bool := decide (0 < s.ntor)

/-- the user's boundary coefficients, `vmec_indata.h`; column `ntor + n` holds toroidal mode `n`
    (the optional arrays `rbs`, `zbc` are present if `lasym`) -/
structure Indata where
  rbc : Int → Int → ℝ
  zbs : Int → Int → ℝ
  rbs : Int → Int → ℝ
  zbc : Int → Int → ℝ

/-- `atan2(y, x)` -/
noncomputable def atan2 (y x : ℝ) : ℝ := Complex.arg ⟨x, y⟩

/-- `signum`, `common/util/util.cc:49-52` -/
def signum (x : Int) : Int := (if x > 0 then 1 else 0) - (if x < 0 then 1 else 0)

/-- position of mode `(m, n)` in the internal arrays -/
def Size.idx (s : Size) (m n : Int) : Int := m * (s.ntor + 1) + n

/-- `delta`, `boundaries.cc:70-91` -/
noncomputable def delta (s : Size) (id : Indata) : ℝ :=
  if s.lasym then
    atan2 (id.rbs 1 (s.ntor + 0) - id.zbc 1 (s.ntor + 0)) (id.rbc 1 (s.ntor + 0) + id.zbs 1 (s.ntor + 0))
  else 0

open Classical in
/-- body of the loops 109-173 for one `(m, n)` -/
noncomputable def parseMode (s : Size) (id : Indata) (delta : ℝ) (m n : Int) (a : Arrays) : Arrays :=
  let cosMDelta := if delta ≠ 0 then Real.cos (m * delta) else 1
  let sinMDelta := if delta ≠ 0 then Real.sin (m * delta) else 0
  let source_n := s.ntor + n
  let target_n : Int := |n|
  let sign_n : ℝ := (signum n : ℝ)
  let rbc := if s.lasym = false ∨ delta = 0 then id.rbc m source_n
    else id.rbc m source_n * cosMDelta + id.rbs m source_n * sinMDelta
  let zbs := if s.lasym = false ∨ delta = 0 then id.zbs m source_n
    else id.zbs m source_n * cosMDelta - id.zbc m source_n * sinMDelta
  let idx_mn := m * (s.ntor + 1) + target_n
  let a := addTo a .rbcc idx_mn rbc
  let a := if m > 0 then addTo a .zbsc idx_mn zbs else a
  let a := if s.lthreed then
      let a := if m > 0 then addTo a .rbss idx_mn (sign_n * rbc) else a
      addTo a .zbcs idx_mn (-(sign_n * zbs))
    else a
  if s.lasym then
    let rbs := if delta = 0 then id.rbs m source_n
      else id.rbs m source_n * cosMDelta - id.rbc m source_n * sinMDelta
    let zbc := if delta = 0 then id.zbc m source_n
      else id.zbc m source_n * cosMDelta + id.zbs m source_n * sinMDelta
    let a := if m > 0 then addTo a .rbsc idx_mn rbs else a
    let a := addTo a .zbcc idx_mn zbc
    if s.lthreed then
      let a := addTo a .rbcs idx_mn (-(sign_n * rbs))
      if m > 0 then addTo a .zbss idx_mn (sign_n * zbc) else a
    else a
  else a

/-- `parseToInternalArrays`, 57-174 (without the copy of the axis, 59-66) -/
noncomputable def parseToInternalArrays (s : Size) (id : Indata) : Arrays :=
  forRange 0 s.mpol (fun m a =>
    forRange (-s.ntor) (s.ntor + 1) (fun n a => parseMode s id (delta s id) m n a) a) (fun _ _ => 0)

open Classical in
/-- `checkSignOfJacobian`, 176-203 -/
noncomputable def checkSignOfJacobian (s : Size) (sign_of_jacobian : Int) (a : Arrays) : Bool :=
  let t := forRange 0 (s.ntor + 1) (fun n (t : ℝ × ℝ) =>
    (t.1 + a .rbcc (1 * (s.ntor + 1) + n), t.2 + a .zbsc (1 * (s.ntor + 1) + n))) (0, 0)
  decide (t.1 * t.2 * sign_of_jacobian > 0)

/-- `flipTheta`, 205-229, one mode -/
noncomputable def flipMode (s : Size) (m n : Int) (a : Arrays) : Arrays :=
  let i := m * (s.ntor + 1) + n
  let m_parity : ℝ := if m.tmod 2 = 0 then 1 else -1
  let a := put a .rbcc i (a .rbcc i * m_parity)
  let a := put a .zbsc i (a .zbsc i * -m_parity)
  let a := if s.lthreed then
      let a := put a .rbss i (a .rbss i * -m_parity)
      put a .zbcs i (a .zbcs i * m_parity)
    else a
  if s.lasym then
    let a := put a .rbsc i (a .rbsc i * -m_parity)
    let a := put a .zbcc i (a .zbcc i * m_parity)
    if s.lthreed then
      let a := put a .rbcs i (a .rbcs i * m_parity)
      put a .zbss i (a .zbss i * -m_parity)
    else a
  else a

/-- `flipTheta`, 205-229 -/
noncomputable def flipTheta (s : Size) (a : Arrays) : Arrays :=
  forRange 1 s.mpol (fun m a => forRange 0 (s.ntor + 1) (fun n a => flipMode s m n a) a) a

/-- `ensureM1Constrained`, 239-254, one toroidal mode -/
noncomputable def m1Mode (s : Size) (scaling_factor : ℝ) (n : Int) (a : Arrays) : Arrays :=
  let i := 1 * (s.ntor + 1) + n
  let a := if s.lthreed then
      let backup_rss := a .rbss i
      let a := put a .rbss i ((backup_rss + a .zbcs i) * scaling_factor)
      put a .zbcs i ((backup_rss - a .zbcs i) * scaling_factor)
    else a
  if s.lasym then
    let backup_rsc := a .rbsc i
    let a := put a .rbsc i ((backup_rsc + a .zbcc i) * scaling_factor)
    put a .zbcc i ((backup_rsc - a .zbcc i) * scaling_factor)
  else a

/-- `ensureM1Constrained`, 239-254 -/
noncomputable def ensureM1Constrained (s : Size) (scaling_factor : ℝ) (a : Arrays) : Arrays :=
  forRange 0 (s.ntor + 1) (fun n a => m1Mode s scaling_factor n a) a

/-- `setupFromIndata`, 40-55 -/
noncomputable def setupFromIndata (s : Size) (sign_of_jacobian : Int) (id : Indata) : Bool × Arrays :=
  let a := parseToInternalArrays s id
  let haveToFlipTheta := checkSignOfJacobian s sign_of_jacobian a
  let a := if haveToFlipTheta then flipTheta s a else a
  (haveToFlipTheta, ensureM1Constrained s (1 / 2) a)

end Verif.Boundary
