import Verif.Output.Fill
import Verif.Output.Gather

/-! # Model of the remaining metric elements and the radial covariant field
(`vmec/output_quantities/output_quantities.cc:1904-2038`, `2481-2499`)

Exact reals; `fillGrid` is the loop nest of the code.  Every array has its own loop nest; in the code they share one,
and each expression uses only values of the same point.  Array bounds are not modelled. -/
namespace Verif.Output
open Verif

/-- `RemainingMetric` -/
structure RemainingMetric where
  rv12 : Int → ℝ
  zv12 : Int → ℝ
  rs12 : Int → ℝ
  zs12 : Int → ℝ
  gsu : Int → ℝ
  gsv : Int → ℝ

/-- `ComputeRemainingMetric`, 1904-1969 -/
noncomputable def remainingMetric (s : Sizes.Sizes) (num_half : Int) (R : Results) : RemainingMetric :=
  let mid := fun (c : GridF) (jH kl : Int) =>
    let idxFi := jH * s.nZnT + kl
    let idxFo := (jH + 1) * s.nZnT + kl
    (R.gridF c idxFo + R.gridF c idxFi) / 2
  let rv12 := fillGrid 0 num_half s.nZnT (fun jH kl => mid .rv_e jH kl + R.profH .sqrtSH jH * mid .rv_o jH kl)
  let zv12 := fillGrid 0 num_half s.nZnT (fun jH kl => mid .zv_e jH kl + R.profH .sqrtSH jH * mid .zv_o jH kl)
  let rs12 := fillGrid 0 num_half s.nZnT (fun jH kl => R.gridH .rs (jH * s.nZnT + kl) + mid .r_o jH kl / (2 * R.profH .sqrtSH jH))
  let zs12 := fillGrid 0 num_half s.nZnT (fun jH kl => R.gridH .zs (jH * s.nZnT + kl) + mid .z_o jH kl / (2 * R.profH .sqrtSH jH))
  let gsu := fillGrid 0 num_half s.nZnT (fun jH kl =>
    let idxH := jH * s.nZnT + kl
    rs12 idxH * R.gridH .ru12 idxH + zs12 idxH * R.gridH .zu12 idxH)
  let gsv := fillGrid 0 num_half s.nZnT (fun jH kl =>
    let idxH := jH * s.nZnT + kl
    rs12 idxH * rv12 idxH + zs12 idxH * zv12 idxH)
  { rv12 := rv12, zv12 := zv12, rs12 := rs12, zs12 := zs12, gsu := gsu, gsv := gsv }

/-- `CylindricalComponentsOfB` -/
structure Cylindrical where
  b_r : Int → ℝ
  b_phi : Int → ℝ
  b_z : Int → ℝ

/-- `BCylindricalComponents`, 1971-1997 -/
noncomputable def bCylindrical (s : Sizes.Sizes) (num_half : Int) (R : Results) (M : RemainingMetric) : Cylindrical :=
  { b_r := fillGrid 0 num_half s.nZnT (fun jH kl =>
      let idxH := jH * s.nZnT + kl
      R.gridH .bsupu idxH * R.gridH .ru12 idxH + R.gridH .bsupv idxH * M.rv12 idxH)
    b_phi := fillGrid 0 num_half s.nZnT (fun jH kl =>
      let idxH := jH * s.nZnT + kl
      R.gridH .bsupv idxH * R.gridH .r12 idxH)
    b_z := fillGrid 0 num_half s.nZnT (fun jH kl =>
      let idxH := jH * s.nZnT + kl
      R.gridH .bsupu idxH * R.gridH .zu12 idxH + R.gridH .bsupv idxH * M.zv12 idxH) }

/-- `ComputeBSubSOnHalfGrid`, 1999-2016 -/
noncomputable def bsubsHalf (s : Sizes.Sizes) (num_half : Int) (R : Results) (M : RemainingMetric) : Int → ℝ :=
  fillGrid 0 num_half s.nZnT (fun jH kl =>
    let idxH := jH * s.nZnT + kl
    R.gridH .bsupu idxH * M.gsu idxH + R.gridH .bsupv idxH * M.gsv idxH)

/-- `PutBSubSOnFullGrid`, 2018-2038 -/
noncomputable def bsubsFull (s : Sizes.Sizes) (num_full : Int) (bsubs_half : Int → ℝ) : Int → ℝ :=
  fillGrid 1 (num_full - 1) s.nZnT (fun jF kl =>
    let jHi := jF - 1
    let jHo := jF
    (bsubs_half (jHo * s.nZnT + kl) + bsubs_half (jHi * s.nZnT + kl)) / 2)

/-- `ExtrapolateBSubS`, 2481-2499 -/
noncomputable def extrapolate (s : Sizes.Sizes) (ns : Int) (bsubs_full : Int → ℝ) : Int → ℝ :=
  forRange 0 s.nZnT (fun kl b =>
    let index_0 := 0 * s.nZnT + kl
    let index_1 := 1 * s.nZnT + kl
    let index_2 := 2 * s.nZnT + kl
    let b := upd b index_0 (2 * b index_1 - b index_2)
    let index_ns_1 := (ns - 1) * s.nZnT + kl
    let index_ns_2 := (ns - 2) * s.nZnT + kl
    let index_ns_3 := (ns - 3) * s.nZnT + kl
    upd b index_ns_1 (2 * b index_ns_2 - b index_ns_3)) bsubs_full

end Verif.Output
