import Verif.Partition.Model
import Verif.Sizes.Model
import Verif.Common.Loop

/-!
# The arrays of the Laplace solver and the accesses to them

An access is an array with the indices used; a piece of code is the list of its accesses. Only the
control flow that depends on sizes, flags and thread ranges is kept; values are not modelled. A
product or a map of Eigen objects is the list of the elements it touches.
All file names are relative to `src/vmecpp/cpp/vmecpp`; lines without a file name are those of
`free_boundary/laplace_solver/laplace_solver.cc`.
-/
namespace Verif.VacBounds
open Verif

/-- What the code of one thread depends on: the sizes, its range of grid points
    (`TangentialPartitioning`) and the Fourier resolution of the potential. -/
structure Env where
  s : Sizes.Sizes
  ztMin : Int
  ztMax : Int
  nf : Int
  mf : Int

/-- The arrays: members of `LaplaceSolver` (`:24-120`), its local vectors, the shared arrays of
    `vmec/vmec/vmec.cc:204-206`, the arguments, the Fourier basis and the output of the inverse
    transform of `Nestor`. -/
inductive Arr where
  -- members
  | grpmn_sin | grpmn_cos | gstore_symm | gstore_asym
  | bcos | bsin | bcos_asym | bsin_asym
  | actemp | astemp | actemp_cos | astemp_cos
  | bvec_sin | bvec_cos | amat_sin_sin | amat_sin_cos | amat_cos_sin | amat_cos_cos
  | cosnv_scaled | sinnv_scaled | cosmui_scaled | sinmui_scaled
  -- locals
  | g1_symm | g2_symm | g1_asym | g2_asym | kernel_odd | kernel_even
  | bcos_mat | bsin_mat | bcos_mat_asym | bsin_mat_asym | cosn_k | sinn_k
  | result_sin | result_cos | actemp_l | astemp_l | result_ss | result_sc | result_cs | result_cc
  | cac_so | cas_so | cac_co | cas_co
  -- shared by all threads
  | matrixShare | iPiv | bvecShare
  -- arguments
  | greenp | gstore | singular_grpmn_sin | singular_grpmn_cos | singular_bvec_sin
  | singular_bvec_cos
  -- Fourier basis
  | mscale | nscale | cosmu | sinmu | cosmui | sinmui | cosnv | sinnv
  -- Nestor
  | potU | potV

open Arr

namespace Env
variable (E : Env)

/-- `numLocal`, `:37` -/
def numLocal : Int := E.ztMax - E.ztMin
/-- `mnpd`, `:45` (elsewhere the factors are exchanged) -/
def mnpd : Int := (2 * E.nf + 1) * (E.mf + 1)
/-- `mnpd_dim`, `:485` -/
def mnpdDim : Int := if E.s.lasym then 2 * E.mnpd else E.mnpd
/-- `mnpd_dim` of the allocation of the shared arrays, `vmec/vmec/vmec.cc:196-203`: computed from
    the sizes, not from `nf` and `mf` of the solver -/
def mnpdDimShared : Int :=
  let mnpd := (2 * E.s.ntor + 1) * (E.s.mpol + 1 + 1)
  if E.s.lasym then 2 * mnpd else mnpd
/-- `size_a_temp`, `:62` -/
def sizeATemp : Int := (E.mf + 1) * (2 * E.nf + 1) * (2 * E.nf + 1) * E.s.nThetaEff

/-- The extents an array is allocated with; an array that is only allocated for `lasym` has extent 0
    otherwise. Members `:39-96`, tables `:99-118`, locals at their declarations, shared arrays
    `vmec/vmec/vmec.cc:204-206`, `greenp` and `gstore`
    `free_boundary/regularized_integrals/regularized_integrals.cc:27-29`, singular parts
    `free_boundary/singular_integrals/singular_integrals.cc:69-75`, Fourier basis
    `common/fourier_basis/fourier_basis.cc:18-33`, `potU`, `potV`
    `free_boundary/nestor/nestor.cc:27-28`. -/
def dims : Arr → List Int
  | grpmn_sin => [E.mnpd * E.numLocal]
  | grpmn_cos => [if E.s.lasym then E.mnpd * E.numLocal else 0]
  | gstore_symm => [E.s.nThetaReduced * E.s.nZeta]
  | gstore_asym => [if E.s.lasym then E.s.nThetaReduced * E.s.nZeta else 0]
  | bcos | bsin => [E.s.nThetaReduced * (2 * E.nf + 1)]
  | bcos_asym | bsin_asym => [if E.s.lasym then E.s.nThetaReduced * (2 * E.nf + 1) else 0]
  | actemp | astemp => [E.sizeATemp]
  | actemp_cos | astemp_cos => [if E.s.lasym then E.sizeATemp else 0]
  | bvec_sin => [E.mnpd]
  | bvec_cos => [if E.s.lasym then E.mnpd else 0]
  | amat_sin_sin => [E.mnpd * E.mnpd]
  | amat_sin_cos | amat_cos_sin | amat_cos_cos => [if E.s.lasym then E.mnpd * E.mnpd else 0]
  | cosnv_scaled | sinnv_scaled => [E.nf + 1, E.s.nZeta]
  | cosmui_scaled | sinmui_scaled => [E.s.nThetaReduced, E.mf + 1]
  | g1_symm | g2_symm | g1_asym | g2_asym => [E.nf + 1]
  | kernel_odd | kernel_even => [E.s.nZeta]
  | bcos_mat | bsin_mat => [E.nf + 1, E.s.nThetaReduced]
  | bcos_mat_asym | bsin_mat_asym =>
    [if E.s.lasym then E.nf + 1 else 0, if E.s.lasym then E.s.nThetaReduced else 0]
  | cosn_k | sinn_k => [E.nf + 1]
  | result_sin | result_cos | result_ss | result_sc | result_cs | result_cc => [E.mf + 1]
  | actemp_l | astemp_l | cac_so | cas_so | cac_co | cas_co => [E.s.nThetaReduced]
  | matrixShare => [E.mnpdDimShared * E.mnpdDimShared]
  | iPiv | bvecShare => [E.mnpdDimShared]
  | greenp => [E.numLocal * E.s.nThetaEven * E.s.nZeta]
  | gstore => [E.s.nThetaEven * E.s.nZeta]
  | singular_grpmn_sin => [E.mnpd * E.numLocal]
  | singular_grpmn_cos => [if E.s.lasym then E.mnpd * E.numLocal else 0]
  | singular_bvec_sin => [E.mnpd]
  | singular_bvec_cos => [if E.s.lasym then E.mnpd else 0]
  | mscale => [E.s.mnyq2 + 1]
  | nscale => [E.s.nnyq2 + 1]
  | cosmu | sinmu | cosmui | sinmui => [E.s.nThetaReduced * (E.s.mnyq2 + 1)]
  | cosnv | sinnv => [(E.s.nnyq2 + 1) * E.s.nZeta]
  | potU | potV => [E.numLocal]

end Env

/-- one access `arr[i]` or `arr(i, j)` -/
structure Acc where
  arr : Arr
  idx : List Int

/-- `arr[i]` for every array of the list -/
def on (l : List Arr) (i : Int) : List Acc := l.map fun a => ⟨a, [i]⟩

/-- `arr(i, j)` for every array of the list -/
def on2 (l : List Arr) (i j : Int) : List Acc := l.map fun a => ⟨a, [i, j]⟩

/-- `for (int j = lo; j < hi; ++j) body` -/
def loop (lo hi : Int) (body : Int → List Acc) : List Acc := (irange lo hi).flatMap body

/-- `if (b) body` -/
def whenB (b : Bool) (body : List Acc) : List Acc := if b then body else []

variable (E : Env)

/-- The tables of the constructor, `:98-119`. -/
def tables : List Acc :=
  (loop 0 (E.nf + 1) fun n => on [nscale] n ++
    loop 0 E.s.nZeta fun k =>
      on [cosnv, sinnv] (n * E.s.nZeta + k) ++ on2 [cosnv_scaled, sinnv_scaled] n k) ++
  (loop 0 E.s.nThetaReduced fun l => loop 0 (E.mf + 1) fun m =>
    on [mscale] m ++ on [cosmui, sinmui] (l * (E.s.mnyq2 + 1) + m) ++
    on2 [cosmui_scaled, sinmui_scaled] l m)

/-- `g.noalias() = scaled * kernel`, `:160-165`: all of the matrix, the vector and the result -/
def matVec (g mat v : Arr) : List Acc :=
  loop 0 (E.nf + 1) fun n => on [g] n ++
    loop 0 E.s.nZeta fun k => on2 [mat] n k ++ on [v] k

/-- `TransformGreensFunctionDerivative`, `:123-207` (the zeroing touches each array as a whole) -/
def transformGreensFunctionDerivative : List Acc :=
  loop E.ztMin E.ztMax fun klp =>
    let klpRel := klp - E.ztMin
    let klpOff := klpRel * E.s.nThetaEven * E.s.nZeta
    loop 0 E.s.nThetaReduced fun l =>
      let lRev := (E.s.nThetaEven - l).tmod E.s.nThetaEven
      (loop 0 E.s.nZeta fun k =>
        let kRev := (E.s.nZeta - k).tmod E.s.nZeta
        let kl := l * E.s.nZeta + k
        let klRev := lRev * E.s.nZeta + kRev
        on [greenp] (klpOff + kl) ++ on [greenp] (klpOff + klRev) ++ on [kernel_odd] k ++
        whenB E.s.lasym (on [kernel_even] k)) ++
      matVec E g1_symm cosnv_scaled kernel_odd ++ matVec E g2_symm sinnv_scaled kernel_odd ++
      whenB E.s.lasym
        (matVec E g1_asym cosnv_scaled kernel_even ++ matVec E g2_asym sinnv_scaled kernel_even) ++
      loop 0 (E.mf + 1) fun m =>
        on2 [cosmui_scaled, sinmui_scaled] l m ++
        loop 0 (E.nf + 1) fun n =>
          let posn := (E.nf + n) * (E.mf + 1) + m
          let negn := (E.nf - n) * (E.mf + 1) + m
          on [g1_symm, g2_symm] n ++ on [grpmn_sin] (posn * E.numLocal + klpRel) ++
          whenB (decide (n > 0)) (on [grpmn_sin] (negn * E.numLocal + klpRel)) ++
          whenB E.s.lasym
            (on [g1_asym, g2_asym] n ++ on [grpmn_cos] (posn * E.numLocal + klpRel) ++
             whenB (decide (n > 0)) (on [grpmn_cos] (negn * E.numLocal + klpRel)))

/-- `SymmetriseSourceTerm`, `:209-229` -/
def symmetriseSourceTerm : List Acc :=
  loop 0 E.s.nThetaReduced fun l =>
    let lRev := (E.s.nThetaEven - l).tmod E.s.nThetaEven
    loop 0 E.s.nZeta fun k =>
      let kRev := (E.s.nZeta - k).tmod E.s.nZeta
      let kl := l * E.s.nZeta + k
      let klRev := lRev * E.s.nZeta + kRev
      on [gstore_symm, gstore] kl ++ on [gstore] klRev ++ whenB E.s.lasym (on [gstore_asym] kl)

/-- `AccumulateFullGrpmn`, `:231-249` -/
def accumulateFullGrpmn : List Acc :=
  (loop 0 (E.mnpd * E.numLocal) fun i => on [singular_grpmn_sin, grpmn_sin] i) ++
  whenB E.s.lasym
    (loop 0 (E.mnpd * E.numLocal) fun i => on [singular_grpmn_cos, grpmn_cos] i)

/-- `res = mat * src_mat.transpose()`, `:259-280`: `src` is mapped as a row-major matrix -/
def matMat (res mat src : Arr) : List Acc :=
  loop 0 (E.nf + 1) fun n => loop 0 E.s.nThetaReduced fun l => on2 [res] n l ++
    loop 0 E.s.nZeta fun k => on2 [mat] n k ++ on [src] (l * E.s.nZeta + k)

/-- first part of `PerformToroidalFourierTransforms`, `:251-306` -/
def toroidalSource : List Acc :=
  matMat E bcos_mat cosnv_scaled gstore_symm ++ matMat E bsin_mat sinnv_scaled gstore_symm ++
  whenB E.s.lasym
    (matMat E bcos_mat_asym cosnv_scaled gstore_asym ++
     matMat E bsin_mat_asym sinnv_scaled gstore_asym) ++
  loop 0 (E.nf + 1) fun n => loop 0 E.s.nThetaReduced fun l =>
    let posn := (E.nf + n) * E.s.nThetaReduced + l
    let negn := (E.nf - n) * E.s.nThetaReduced + l
    on [bcos, bsin] posn ++ on2 [bcos_mat, bsin_mat] n l ++
    whenB (decide (n > 0)) (on [bcos, bsin] negn) ++
    whenB E.s.lasym
      (on [bcos_asym, bsin_asym] posn ++ on2 [bcos_mat_asym, bsin_mat_asym] n l ++
       whenB (decide (n > 0)) (on [bcos_asym, bsin_asym] negn))

/-- second part of `PerformToroidalFourierTransforms`, `:308-372` -/
def toroidalMatrix : List Acc :=
  (loop 0 E.s.nThetaEff fun l => loop 0 E.s.nZeta fun k =>
    let klp := l * E.s.nZeta + k
    whenB (!(decide (klp < E.ztMin) || decide (klp ≥ E.ztMax)))
      (let klpRel := klp - E.ztMin
       (loop 0 (E.nf + 1) fun n => on [cosn_k, sinn_k] n ++ on2 [cosnv_scaled, sinnv_scaled] n k) ++
       loop 0 E.mnpd fun mn =>
         on [grpmn_sin] (mn * E.numLocal + klpRel) ++
         whenB E.s.lasym (on [grpmn_cos] (mn * E.numLocal + klpRel)) ++
         loop 0 (E.nf + 1) fun n =>
           let posn := (mn * (2 * E.nf + 1) + (E.nf + n)) * E.s.nThetaEff + l
           on [cosn_k, sinn_k] n ++ on [actemp, astemp] posn ++
           whenB E.s.lasym (on [actemp_cos, astemp_cos] posn))) ++
  (loop 0 E.mnpd fun mn => loop 1 (E.nf + 1) fun n => loop 0 E.s.nThetaEff fun l =>
    let posn := (mn * (2 * E.nf + 1) + (E.nf + n)) * E.s.nThetaEff + l
    let negn := (mn * (2 * E.nf + 1) + (E.nf - n)) * E.s.nThetaEff + l
    on [actemp, astemp] posn ++ on [actemp, astemp] negn ++
    whenB E.s.lasym (on [actemp_cos, astemp_cos] posn ++ on [actemp_cos, astemp_cos] negn))

/-- `res = mat.transpose() * v`, `:402-403`, `:415-416`, `:441-442` …; `v` starts at `base` -/
def matTVec (res mat v : Arr) (base : Int) : List Acc :=
  loop 0 (E.mf + 1) fun m => on [res] m ++
    loop 0 E.s.nThetaReduced fun l => on2 [mat] l m ++ on [v] (base + l)

/-- first part of `PerformPoloidalFourierTransforms`, `:374-422` -/
def poloidalSource : List Acc :=
  loop 0 (2 * E.nf + 1) fun all_n =>
    matTVec E result_sin sinmui_scaled bcos (all_n * E.s.nThetaReduced) ++
    matTVec E result_sin cosmui_scaled bsin (all_n * E.s.nThetaReduced) ++
    (loop 0 (E.mf + 1) fun m => on [bvec_sin] (all_n * (E.mf + 1) + m) ++ on [result_sin] m) ++
    whenB E.s.lasym
      (matTVec E result_cos cosmui_scaled bcos_asym (all_n * E.s.nThetaReduced) ++
       matTVec E result_cos sinmui_scaled bsin_asym (all_n * E.s.nThetaReduced) ++
       loop 0 (E.mf + 1) fun m => on [bvec_cos] (all_n * (E.mf + 1) + m) ++ on [result_cos] m)

/-- second part of `PerformPoloidalFourierTransforms`, `:424-491` -/
def poloidalMatrix : List Acc :=
  loop 0 E.mnpd fun mn => loop 0 (2 * E.nf + 1) fun all_n =>
    let base_idx := (mn * (2 * E.nf + 1) + all_n) * E.s.nThetaEff
    (loop 0 E.s.nThetaReduced fun l =>
      on [actemp_l, astemp_l] l ++ on [actemp, astemp] (base_idx + l)) ++
    matTVec E result_ss sinmui_scaled actemp_l 0 ++ matTVec E result_ss cosmui_scaled astemp_l 0 ++
    (loop 0 (E.mf + 1) fun m =>
      on [amat_sin_sin] ((all_n * (E.mf + 1) + m) * E.mnpd + mn) ++ on [result_ss] m) ++
    whenB E.s.lasym
      (matTVec E result_sc cosmui_scaled actemp_l 0 ++ matTVec E result_sc sinmui_scaled astemp_l 0 ++
       (loop 0 (E.mf + 1) fun m =>
         on [amat_sin_cos] ((all_n * (E.mf + 1) + m) * E.mnpd + mn) ++ on [result_sc] m) ++
       (loop 0 E.s.nThetaReduced fun l =>
         let rl := (E.s.nThetaEven - l).tmod E.s.nThetaEven
         on [actemp_cos, astemp_cos] (base_idx + l) ++ on [actemp_cos, astemp_cos] (base_idx + rl) ++
         on [cac_so, cas_so, cac_co, cas_co] l) ++
       matTVec E result_cs sinmui_scaled cac_so 0 ++ matTVec E result_cs cosmui_scaled cas_so 0 ++
       matTVec E result_cc cosmui_scaled cac_co 0 ++ matTVec E result_cc sinmui_scaled cas_co 0 ++
       loop 0 (E.mf + 1) fun m =>
         on [amat_cos_sin, amat_cos_cos] ((all_n * (E.mf + 1) + m) * E.mnpd + mn) ++
         on [result_cs, result_cc] m)

/-- `BuildMatrix`, the accumulation, `:483-530` -/
def buildMatrixAdd : List Acc :=
  (loop 0 (E.mnpdDim * E.mnpdDim) fun i => on [matrixShare] i) ++
  (if !E.s.lasym then
    loop 0 (E.mnpd * E.mnpd) fun i => on [matrixShare, amat_sin_sin] i
  else
    let stride := E.mnpdDim
    loop 0 E.mnpd fun j => loop 0 E.mnpd fun i =>
      let src := j * E.mnpd + i
      on [amat_sin_sin, amat_sin_cos, amat_cos_sin, amat_cos_cos] src ++
      on [matrixShare] (i + j * stride) ++ on [matrixShare] (i + (j + E.mnpd) * stride) ++
      on [matrixShare] ((i + E.mnpd) + j * stride) ++
      on [matrixShare] ((i + E.mnpd) + (j + E.mnpd) * stride))

/-- `BuildMatrix`, zeroed rows and diagonal, `:532-588` -/
def buildMatrixDiag : List Acc :=
  (loop 0 E.mnpd fun mnp => loop 0 E.nf fun all_n =>
    if !E.s.lasym then
      on [matrixShare] ((mnp * (2 * E.nf + 1) + all_n) * (E.mf + 1) + 0)
    else
      let row := all_n * (E.mf + 1) + 0
      on [matrixShare] (row + mnp * E.mnpdDim) ++ on [matrixShare] (row + (mnp + E.mnpd) * E.mnpdDim) ++
      on [matrixShare] ((row + E.mnpd) + mnp * E.mnpdDim) ++
      on [matrixShare] ((row + E.mnpd) + (mnp + E.mnpd) * E.mnpdDim)) ++
  (if !E.s.lasym then
    loop 0 E.mnpd fun mn => on [matrixShare] (mn * E.mnpd + mn)
  else
    let stride := E.mnpdDim
    let mn0 := E.nf * (E.mf + 1)
    (loop 0 E.mnpd fun mn =>
      on [matrixShare] (mn + mn * stride) ++
      on [matrixShare] ((mn + E.mnpd) + (mn + E.mnpd) * stride)) ++
    on [matrixShare] ((mn0 + E.mnpd) + (mn0 + E.mnpd) * stride))

/-- `DecomposeMatrix`, `:590-617`: by its contract `dgetrf` accesses a column-major matrix of
    `mnpd_dim` rows and columns with leading dimension `mnpd_dim` and as many pivots. -/
def decomposeMatrix : List Acc :=
  loop 0 E.mnpdDim fun j => on [iPiv] j ++
    loop 0 E.mnpdDim fun i => on [matrixShare] (i + j * E.mnpdDim)

/-- `SolveForPotential`, `:619-681`; `dgetrs` accesses matrix, pivots and one right-hand side -/
def solveForPotential : List Acc :=
  (loop 0 E.mnpdDim fun i => on [bvecShare] i) ++
  (loop 0 E.mnpd fun i => on [bvecShare, singular_bvec_sin, bvec_sin] i) ++
  whenB E.s.lasym
    (loop 0 E.mnpd fun i => on [bvecShare] (E.mnpd + i) ++ on [singular_bvec_cos, bvec_cos] i) ++
  (loop 0 E.nf fun all_n =>
    on [bvecShare] (all_n * (E.mf + 1) + 0) ++
    whenB E.s.lasym (on [bvecShare] (E.mnpd + all_n * (E.mf + 1) + 0))) ++
  decomposeMatrix E ++ (loop 0 E.mnpdDim fun i => on [bvecShare] i)

/-- `std::abs(int)` -/
def absInt (n : Int) : Int := if n < 0 then -n else n

/-- inverse transform of the potential in `Nestor::update`,
    `free_boundary/nestor/nestor.cc:131-180` -/
def inversePotential : List Acc :=
  loop E.ztMin E.ztMax fun kl =>
    let l := kl.tdiv E.s.nZeta
    let k := kl.tmod E.s.nZeta
    let lr := if l < E.s.nThetaReduced then l else E.s.nThetaEven - l
    loop 0 E.mnpd fun mn =>
      let n := mn.tdiv (E.mf + 1) - E.nf
      let m := mn.tmod (E.mf + 1)
      let idx_lm := lr * (E.s.mnyq2 + 1) + m
      let idx_nk := absInt n * E.s.nZeta + k
      on [cosmu, sinmu] idx_lm ++ on [mscale] m ++ on [cosnv, sinnv] idx_nk ++
      on [nscale] (absInt n) ++ on [potU, potV] (kl - E.ztMin) ++ on [bvecShare] mn ++
      whenB E.s.lasym (on [bvecShare] (E.mnpd + mn))

/-- everything a thread runs in a full update: the constructor, then `Nestor::update`,
    `free_boundary/nestor/nestor.cc:76-180` -/
def fullUpdate : List Acc :=
  tables E ++ transformGreensFunctionDerivative E ++ symmetriseSourceTerm E ++
  accumulateFullGrpmn E ++ toroidalSource E ++ toroidalMatrix E ++ poloidalSource E ++
  poloidalMatrix E ++ buildMatrixAdd E ++ buildMatrixDiag E ++ decomposeMatrix E ++
  solveForPotential E ++ inversePotential E

end Verif.VacBounds
