import Verif.Common.Mem

/-!
# Model of the change of Fourier resolution

`common/vmec_indata/vmec_indata.cc` (`SetMpolNtor`) and `src/vmecpp/__init__.py` (`resize_2d_coeff`,
`resize_1d_axis_coeff`, `_validate_fourier_coefficients_shapes`). Coefficients are of any type with a zero.
-/
namespace Verif.Resize
open Verif

variable {α : Type} [Zero α]

/-- the members of `VmecINDATA` that depend on the resolution, `vmec_indata.h` -/
structure Indata (α : Type) where
  lasym : Bool
  mpol : Int
  ntor : Int
  raxis_c : Vec α
  zaxis_s : Vec α
  raxis_s : Option (Vec α)
  zaxis_c : Option (Vec α)
  rbc : Mat α
  zbs : Mat α
  rbs : Option (Mat α)
  zbc : Option (Mat α)

/-- `x = VectorXd::Zero(new_ntor + 1); x(shortest_range) = old(shortest_range)`, `vmec_indata.cc:208-227`,
    with `shortest_range = seq(0, min(ntor, new_ntor))` -/
def resizeAxis (ntor new_ntor : Int) (old : Vec α) : Outcome (Vec α) := do
  let z ← Vec.zero (new_ntor + 1)
  forRangeM 0 (min ntor new_ntor + 1) (fun i z => do
    let a ← old.get i
    z.set i a) z

/-- the lambda `resized_2d_coeff`, `vmec_indata.cc:229-244` -/
def resizedCoeff (mpol ntor new_mpol new_ntor : Int) (coeff : Mat α) : Outcome (Mat α) := do
  let new_nmax := (2 * new_ntor) + 1
  let z ← Mat.zero new_mpol new_nmax
  let smaller_ntor := min ntor new_ntor
  let smaller_mpol := min mpol new_mpol
  forRangeM 0 smaller_mpol (fun m z =>
    forRangeM (-smaller_ntor) (smaller_ntor + 1) (fun n z => do
      let a ← coeff.get m (n + ntor)
      z.set m (n + new_ntor) a) z) z

/-- an optional member that gets its zero default if it is absent, `vmec_indata.cc:196-201` -/
def emplaceVec (x : Option (Vec α)) (n : Int) : Outcome (Vec α) :=
  match x with
  | some v => .ok v
  | none => Vec.zero n

def emplaceMat (x : Option (Mat α)) (r c : Int) : Outcome (Mat α) :=
  match x with
  | some v => .ok v
  | none => Mat.zero r c

/-- `SetMpolNtor`, `vmec_indata.cc:189-255` -/
def setMpolNtor (d : Indata α) (new_mpol new_ntor : Int) : Outcome (Indata α) := do
  let d ← if d.lasym then do
      let rs ← emplaceVec d.raxis_s (d.ntor + 1)
      let zc ← emplaceVec d.zaxis_c (d.ntor + 1)
      let rb ← emplaceMat d.rbs d.mpol (2 * d.ntor + 1)
      let zb ← emplaceMat d.zbc d.mpol (2 * d.ntor + 1)
      pure { d with raxis_s := some rs, zaxis_c := some zc, rbs := some rb, zbc := some zb }
    else pure d
  if new_mpol = d.mpol ∧ new_ntor = d.ntor then pure d
  else do
    let raxis_c ← resizeAxis d.ntor new_ntor d.raxis_c
    let zaxis_s ← resizeAxis d.ntor new_ntor d.zaxis_s
    let d1 : Indata α := { d with raxis_c := raxis_c, zaxis_s := zaxis_s }
    let d2 ← match d1.lasym, d1.raxis_s, d1.zaxis_c with
      | false, _, _ => pure d1
      | true, some rs, some zc => do
        let rs ← resizeAxis d.ntor new_ntor rs
        let zc ← resizeAxis d.ntor new_ntor zc
        pure { d1 with raxis_s := some rs, zaxis_c := some zc }
      | true, _, _ => .throws "bad_optional_access"
    let rbc ← resizedCoeff d.mpol d.ntor new_mpol new_ntor d2.rbc
    let zbs ← resizedCoeff d.mpol d.ntor new_mpol new_ntor d2.zbs
    let d3 : Indata α := { d2 with rbc := rbc, zbs := zbs }
    let d4 ← match d3.lasym, d3.rbs, d3.zbc with
      | false, _, _ => pure d3
      | true, some rb, some zb => do
        let rb ← resizedCoeff d.mpol d.ntor new_mpol new_ntor rb
        let zb ← resizedCoeff d.mpol d.ntor new_mpol new_ntor zb
        pure { d3 with rbs := some rb, zbc := some zb }
      | true, _, _ => .throws "bad_optional_access"
    pure { d4 with mpol := new_mpol, ntor := new_ntor }

/-! ## Python -/

/-- `resize_1d_axis_coeff`, `__init__.py:571-600`; an exception is `status`, a failing assertion too -/
def pyResize1d (coeff : Vec α) (ntor_new : Int) : Outcome (Vec α) :=
  if ¬ ntor_new ≥ 0 then .status "assert"
  else
    let new_len := ntor_new + 1
    if coeff.size > new_len then .status "length of axis coefficient array exceeds ntor+1"
    else .ok ⟨new_len, fun i => if 0 ≤ i ∧ i < coeff.size then coeff.val i else 0⟩

/-- `resize_2d_coeff`, `__init__.py:603-655` (`//` is floor division) -/
def pyResize2d (coeff : Mat α) (mpol_new ntor_new : Int) : Outcome (Mat α) :=
  if ¬ (mpol_new ≥ 0 ∧ ntor_new ≥ 0) then .status "assert"
  else
    let ntor := (coeff.cols - 1) / 2
    if ¬ coeff.cols = 2 * ntor + 1 then .status "assert"
    else do
      let z ← Mat.zero mpol_new (2 * ntor_new + 1)
      let smaller_ntor := min ntor ntor_new
      let smaller_mpol := min coeff.rows mpol_new
      forRangeM 0 smaller_mpol (fun m z =>
        forRangeM (-smaller_ntor) (smaller_ntor + 1) (fun n z => do
          let a ← coeff.get m (n + ntor)
          z.set m (n + ntor_new) a) z) z

/-- treatment of one boundary field by the validator, `__init__.py:516-532` -/
def pyField2d (x : Option (Mat α)) (mpol ntor : Int) : Outcome (Mat α) :=
  match x with
  | none => Mat.zero mpol (2 * ntor + 1)
  | some v => if v.rows = mpol ∧ v.cols = 2 * ntor + 1 then .ok v else pyResize2d v mpol ntor

/-- treatment of one axis field by the validator, `__init__.py:541-550` -/
def pyField1d (x : Option (Vec α)) (ntor : Int) : Outcome (Option (Vec α)) :=
  match x with
  | none => .ok none
  | some v => if v.size ≠ ntor + 1 then do
        let w ← pyResize1d v ntor
        pure (some w)
      else .ok (some v)

end Verif.Resize
