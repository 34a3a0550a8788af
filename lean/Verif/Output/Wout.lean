import Verif.Output.Gather
import Verif.Fourier.Model

/-! # Model of the geometry coefficients in the output file (`vmec/output_quantities/output_quantities.cc:4573-4700`, `5186-5300`)

Exact reals.  The three arrays `rmnc1`, `zmns1`, `lmns1` of one surface are one array of triples, the running index
`mn` starts at the first position instead of one before it; arrays over all surfaces that are written once per element
are functions of the indices.  Array bounds are not modelled. -/
namespace Verif.Output
open Verif

/-- position in the collected state vector, e.g. 4585 -/
def cIdx (s : Sizes.Sizes) (jF n m : Int) : Int := (jF * (s.ntor + 1) + n) * s.mpol + m

/-- conversion of the `m = 1` modes of one pair of arrays, 4581-4593 (`a = rmnss`, `b = zmncs`) and 5192-5203 (`a = rmnsc`, `b = zmncc`) -/
def convertM1 (s : Sizes.Sizes) (ns : Int) (a b : Coef) (x : Coef → Int → ℝ) : Coef → Int → ℝ :=
  forRange 0 ns (fun jF x => forRange 0 (s.ntor + 1) (fun n x =>
    let idx_fc := cIdx s jF n 1
    let old := x a idx_fc
    let x := put x a idx_fc (old + x b idx_fc)
    put x b idx_fc (old - x b idx_fc)) x) x

/-- both conversions: 4580-4594 under `lthreed`, 5186-5203 under `lasym`; they work on different arrays -/
def convert (s : Sizes.Sizes) (ns : Int) (x : Coef → Int → ℝ) : Coef → Int → ℝ :=
  let x := if s.lthreed then convertM1 s ns .rmnss .zmncs x else x
  if s.lasym then convertM1 s ns .rmnsc .zmncc x else x

/-- entries of `rmnc1`, `zmns1`, `lmns1` (or `rmns1`, `zmnc1`, `lmnc1`) at one mode -/
structure RZL where
  r : ℝ
  z : ℝ
  l : ℝ

/-- the local arrays `rmnc1`, `zmns1`, `lmns1` of surface `jF`, 4603-4660; `abort` is the `CHECK_EQ` of 4658 -/
noncomputable def symSurface (s : Sizes.Sizes) (mscale nscale : Int → ℝ) (x : Coef → Int → ℝ) (jF : Int) : Outcome (Int → RZL) :=
  let st := forRange 0 (s.ntor + 1) (fun n (st : Int × (Int → RZL)) =>
    let idx_fc := cIdx s jF n 0
    let t1 := mscale 0 * nscale n
    (st.1 + 1, upd st.2 st.1
      { r := t1 * x .rmncc idx_fc
        z := if s.lthreed then -t1 * x .zmncs idx_fc else 0
        l := if s.lthreed then -t1 * x .lmncs idx_fc else 0 })) ((0 : Int), fun _ => (⟨0, 0, 0⟩ : RZL))
  let a := if s.lthreed ∧ jF = 0 then
      (forRange 0 (s.ntor + 1) (fun n (st : Int × (Int → RZL)) =>
        let idx_ns_1 := cIdx s 1 n 0
        let idx_ns_2 := cIdx s 2 n 0
        let t1 := mscale 0 * nscale n
        (st.1 + 1, upd st.2 st.1 { st.2 st.1 with l := -t1 * (2 * x .lmncs idx_ns_1 - x .lmncs idx_ns_2) })) ((0 : Int), st.2)).2
    else st.2
  let r := forRange 1 s.mpol (fun m st => forRange (-s.ntor) (s.ntor + 1) (fun n (st : Int × (Int → RZL)) =>
    let abs_n := |n|
    let idx_fc := cIdx s jF abs_n m
    let t1 := mscale m * nscale abs_n
    let sign_n : ℝ := (n.sign : ℝ)
    (st.1 + 1, upd st.2 st.1
      (if n = 0 then { r := t1 * x .rmncc idx_fc, z := t1 * x .zmnsc idx_fc, l := t1 * x .lmnsc idx_fc }
       else if jF > 0 then
        { r := t1 * x .rmncc idx_fc / 2 + if s.lthreed then t1 * sign_n * x .rmnss idx_fc / 2 else 0
          z := t1 * x .zmnsc idx_fc / 2 - if s.lthreed then t1 * sign_n * x .zmncs idx_fc / 2 else 0
          l := t1 * x .lmnsc idx_fc / 2 - if s.lthreed then t1 * sign_n * x .lmncs idx_fc / 2 else 0 }
       else ⟨0, 0, 0⟩))) st) (st.1, a)
  if r.1 = s.mnmax then .ok r.2 else .abort "counting error"

/-- the local arrays `rmns1`, `zmnc1`, `lmnc1` of surface `jF`, 5212-5261 -/
noncomputable def asymSurface (s : Sizes.Sizes) (mscale nscale : Int → ℝ) (x : Coef → Int → ℝ) (jF : Int) : Outcome (Int → RZL) :=
  let st := forRange 0 (s.ntor + 1) (fun n (st : Int × (Int → RZL)) =>
    let idx_fc := cIdx s jF n 0
    let t1 := mscale 0 * nscale n
    (st.1 + 1, upd st.2 st.1
      { r := if s.lthreed then -t1 * x .rmncs idx_fc else 0
        z := t1 * x .zmncc idx_fc
        l := t1 * x .lmncc idx_fc })) ((0 : Int), fun _ => (⟨0, 0, 0⟩ : RZL))
  let r := forRange 1 s.mpol (fun m st => forRange (-s.ntor) (s.ntor + 1) (fun n (st : Int × (Int → RZL)) =>
    let abs_n := |n|
    let idx_fc := cIdx s jF abs_n m
    let t1 := mscale m * nscale abs_n
    let sign_n : ℝ := (n.sign : ℝ)
    (st.1 + 1, upd st.2 st.1
      (if n = 0 then { r := t1 * x .rmnsc idx_fc, z := t1 * x .zmncc idx_fc, l := t1 * x .lmncc idx_fc }
       else if jF > 0 then
        { r := t1 * x .rmnsc idx_fc / 2 - if s.lthreed then t1 * sign_n * x .rmncs idx_fc / 2 else 0
          z := t1 * x .zmncc idx_fc / 2 + if s.lthreed then t1 * sign_n * x .zmnss idx_fc / 2 else 0
          l := t1 * x .lmncc idx_fc / 2 + if s.lthreed then t1 * sign_n * x .lmnss idx_fc / 2 else 0 }
       else ⟨0, 0, 0⟩))) st) st
  if r.1 = s.mnmax then .ok r.2 else .abort "counting error"

/-- `lmns_full(mn, jF)` from `lmns1[mn]`, 4665-4666 (and `lmnc_full`, 5267-5268) -/
noncomputable def lambdaFull (lamscale : ℝ) (phipF : Int → ℝ) (jF : Int) (l1 : ℝ) : ℝ := l1 / phipF jF * lamscale

/-- `lmns(mn, jH + 1)`, 4673-4699 (and `lmnc`, 5276-5299); column 0 stays zero -/
noncomputable def lambdaHalf (xm : Int → Int) (sm sp : Int → ℝ) (lmns_full : Int → Int → ℝ) (mn jH : Int) : ℝ :=
  let jFi := jH
  let jFo := jH + 1
  let lmns_outside := lmns_full mn jFo
  let lmns_inside := if jFi = 0 ∧ xm mn ≤ 1 then lmns_outside else lmns_full mn jFi
  if (xm mn).tmod 2 = 0 then (lmns_outside + lmns_inside) / 2
  else (sm jH * lmns_outside + sp jH * lmns_inside) / 2

end Verif.Output
