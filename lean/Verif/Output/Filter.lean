import Verif.Output.Fill
import Verif.Output.Gather
import Verif.Fourier.Basis

/-! # Model of the symmetry decomposition and the low-pass filter of the covariant field
(`vmec/output_quantities/output_quantities.cc:2040-2479`)

Exact reals.  The loop over the modes of the code serves several arrays at once; here every array has its own copy of the
loops, with the same order of the accesses to that array.  The basis tables are those of `FourierBasisFastPoloidal`
(`Fourier.Basis`), with the index expressions of the code.  Array bounds are not modelled. -/
namespace Verif.Output
open Verif Verif.Fourier

variable (s : Sizes.Sizes)

/-- `nZnT_reduced`, 1573 -/
def reduced : Int := s.nThetaReduced * s.nZeta

/-- `kl_reversed`, 2071-2073 -/
def klReversed (k l : Int) : Int :=
  let l_reversed := (s.nThetaEven - l).tmod s.nThetaEven
  let k_reversed := (s.nZeta - k).tmod s.nZeta
  k_reversed * s.nThetaEven + l_reversed

/-- `bsubs_s` (`sign = -1`) and `bsubs_a` (`sign = 1`), 2064-2085; without `lasym` 2119-2126 -/
noncomputable def decomposeS (num_full : Int) (sign : ℝ) (bsubs_full : Int → ℝ) : Int → ℝ :=
  fillGrid 0 num_full (reduced s) (fun jF kl =>
    let source_index := jF * s.nZnT + kl
    if s.lasym then
      let k := kl.tdiv s.nThetaReduced
      let l := kl.tmod s.nThetaReduced
      let source_index_reversed := jF * s.nZnT + klReversed s k l
      0.5 * (bsubs_full source_index + sign * bsubs_full source_index_reversed)
    else bsubs_full source_index)

/-- `bsubu_s`, `bsubv_s` (`sign = 1`) and `bsubu_a`, `bsubv_a` (`sign = -1`), 2086-2115; without `lasym` 2127-2136 (there the loop
    runs to `nZnT`, which is `nZnT_reduced`) -/
noncomputable def decomposeUV (num_half : Int) (sign : ℝ) (bsub : Int → ℝ) : Int → ℝ :=
  if s.lasym then
    fillGrid 0 num_half (reduced s) (fun jH kl =>
      let k := kl.tdiv s.nThetaReduced
      let l := kl.tmod s.nThetaReduced
      let source_index := jH * s.nZnT + (k * s.nThetaEven + l)
      let source_index_reversed := jH * s.nZnT + klReversed s k l
      0.5 * (bsub source_index + sign * bsub source_index_reversed))
  else
    forRange 0 num_half (fun jH a => forRange 0 s.nZnT (fun kl a =>
      let source_index := jH * s.nZnT + kl
      let target_index := jH * reduced s + kl
      upd a target_index (bsub source_index)) a) (fun _ => 0)

/-- `dnorm1`, 2183-2189 -/
noncomputable def dnorm1 (m n : Int) : ℝ :=
  let d : ℝ := 1
  let d := if m = s.mnyq then d / 2 else d
  if n = s.nnyq ∧ n ≠ 0 then d / 2 else d

/-- one of the sums `bsubsmn1`, ..., 2198-2231, 2288-2337 -/
noncomputable def analyse (nfp : Int) (U : PolEntry → ℝ) (V : TorEntry → ℝ) (f : Int → ℝ) (j m n : Int) : ℝ :=
  forRange 0 s.nZeta (fun k acc =>
    let idx_kn := k * (s.nnyq2 + 1) + n
    forRange 0 s.nThetaReduced (fun l acc =>
      let idx_ml := m * s.nThetaReduced + l
      let kl := k * s.nThetaReduced + l
      let source_index := j * reduced s + kl
      acc + U (polTables fastPoloidal s idx_ml) * V (torTables fastPoloidal s nfp idx_kn) * dnorm1 s m n * f source_index) acc) 0

/-- the accumulation of an array over modes and grid points, 2180-2267, 2275-2386 -/
noncomputable def accGrid (num : Int) (v : Int → Int → Int → Int → Int → ℝ) : Int → ℝ :=
  forRange 0 num (fun j a => forRange 0 s.mpol (fun m a => forRange 0 (s.ntor + 1) (fun n a =>
    forRange 0 s.nZeta (fun k a => forRange 0 s.nThetaReduced (fun l a =>
      let kl := k * s.nThetaReduced + l
      let target_index := j * reduced s + kl
      upd a target_index (a target_index + v j m n k l)) a) a) a) a) (fun _ => 0)

/-- one term `tcos1 * bsubumn1 + tcos2 * bsubumn2` of the inverse transform -/
noncomputable def term (nfp : Int) (A : PolEntry → ℝ) (B : TorEntry → ℝ) (A' : PolEntry → ℝ) (B' : TorEntry → ℝ) (c1 c2 : Int → Int → Int → ℝ)
    (j m n k l : Int) : ℝ :=
  let idx_kn := k * (s.nnyq2 + 1) + n
  let idx_ml := m * s.nThetaReduced + l
  let P := polTables fastPoloidal s idx_ml
  let T := torTables fastPoloidal s nfp idx_kn
  A P * B T * c1 j m n + A' P * B' T * c2 j m n

/-- extension to the full poloidal grid: 2388-2424 (`bsubu`, `bsubv`), 2439-2468 (`bsubsu`, `bsubsv`; there the second loop over `l`
    comes first, the loops write different elements) -/
noncomputable def extend (num : Int) (fs fa : Int → ℝ) (a : Int → ℝ) : Int → ℝ :=
  forRange 0 num (fun j a => forRange 0 s.nZeta (fun k a =>
    let k_reversed := (s.nZeta - k).tmod s.nZeta
    let a := forRange 0 s.nThetaReduced (fun l a =>
      let source_index := j * reduced s + (k * s.nThetaReduced + l)
      let target_index := j * s.nZnT + (k * s.nThetaEff + l)
      upd a target_index (fs source_index + fa source_index)) a
    forRange s.nThetaReduced s.nThetaEven (fun l a =>
      let l_reversed := (s.nThetaEven - l).tmod s.nThetaEven
      let source_index_reversed := j * reduced s + (k_reversed * s.nThetaReduced + l_reversed)
      let target_index := j * s.nZnT + (k * s.nThetaEff + l)
      upd a target_index (fs source_index_reversed - fa source_index_reversed)) a) a) a

/-- copy without `lasym`, 2425-2434, 2469-2477 -/
noncomputable def copyBack (num : Int) (fs : Int → ℝ) (a : Int → ℝ) : Int → ℝ :=
  fillGridOn 0 num s.nZnT (fun j kl => fs (j * s.nZnT + kl)) a

/-- both branches -/
noncomputable def finish (num : Int) (fs fa : Int → ℝ) (a : Int → ℝ) : Int → ℝ :=
  if s.lasym then extend s num fs fa a else copyBack s num fs a

/-- the filtered `bsubu` (from `bsubu`) or `bsubv` (from `bsubv`) -/
noncomputable def filteredUV (nfp num_half : Int) (bsub : Int → ℝ) : Int → ℝ :=
  let f_s := decomposeUV s num_half 1 bsub
  let f_a := decomposeUV s num_half (-1) bsub
  let mn1 := analyse s nfp PolEntry.cosmui TorEntry.cosnv f_s
  let mn2 := analyse s nfp PolEntry.sinmui TorEntry.sinnv f_s
  let mn3 := analyse s nfp PolEntry.sinmui TorEntry.cosnv f_a
  let mn4 := analyse s nfp PolEntry.cosmui TorEntry.sinnv f_a
  let filtered_s := accGrid s num_half (term s nfp PolEntry.cosmu TorEntry.cosnv PolEntry.sinmu TorEntry.sinnv mn1 mn2)
  let filtered_a := accGrid s num_half (term s nfp PolEntry.sinmu TorEntry.cosnv PolEntry.cosmu TorEntry.sinnv mn3 mn4)
  finish s num_half filtered_s filtered_a bsub

/-- `covariant_b_derivatives.bsubvu`, 2356-2359 and 2373-2376 -/
noncomputable def bsubvu (nfp num_half : Int) (bsubv : Int → ℝ) : Int → ℝ :=
  let f_s := decomposeUV s num_half 1 bsubv
  let f_a := decomposeUV s num_half (-1) bsubv
  let mn1 := analyse s nfp PolEntry.cosmui TorEntry.cosnv f_s
  let mn2 := analyse s nfp PolEntry.sinmui TorEntry.sinnv f_s
  let mn3 := analyse s nfp PolEntry.sinmui TorEntry.cosnv f_a
  let mn4 := analyse s nfp PolEntry.cosmui TorEntry.sinnv f_a
  accGrid s num_half (fun j m n k l =>
    term s nfp PolEntry.sinmum TorEntry.cosnv PolEntry.cosmum TorEntry.sinnv mn1 mn2 j m n k l +
      if s.lasym then term s nfp PolEntry.cosmum TorEntry.cosnv PolEntry.sinmum TorEntry.sinnv mn3 mn4 j m n k l else 0)

/-- `covariant_b_derivatives.bsubuv`, 2361-2364 and 2378-2381 -/
noncomputable def bsubuv (nfp num_half : Int) (bsubu : Int → ℝ) : Int → ℝ :=
  let f_s := decomposeUV s num_half 1 bsubu
  let f_a := decomposeUV s num_half (-1) bsubu
  let mn1 := analyse s nfp PolEntry.cosmui TorEntry.cosnv f_s
  let mn2 := analyse s nfp PolEntry.sinmui TorEntry.sinnv f_s
  let mn3 := analyse s nfp PolEntry.sinmui TorEntry.cosnv f_a
  let mn4 := analyse s nfp PolEntry.cosmui TorEntry.sinnv f_a
  accGrid s num_half (fun j m n k l =>
    term s nfp PolEntry.cosmu TorEntry.sinnvn PolEntry.sinmu TorEntry.cosnvn mn1 mn2 j m n k l +
      if s.lasym then term s nfp PolEntry.sinmu TorEntry.sinnvn PolEntry.cosmu TorEntry.cosnvn mn3 mn4 j m n k l else 0)

/-- `covariant_b_derivatives.bsubsu` -/
noncomputable def bsubsu (nfp num_full : Int) (bsubs_full : Int → ℝ) : Int → ℝ :=
  let f_s := decomposeS s num_full (-1) bsubs_full
  let f_a := decomposeS s num_full 1 bsubs_full
  let mn1 := analyse s nfp PolEntry.sinmui TorEntry.cosnv f_s
  let mn2 := analyse s nfp PolEntry.cosmui TorEntry.sinnv f_s
  let mn3 := analyse s nfp PolEntry.cosmui TorEntry.cosnv f_a
  let mn4 := analyse s nfp PolEntry.sinmui TorEntry.sinnv f_a
  finish s num_full (accGrid s num_full (term s nfp PolEntry.cosmum TorEntry.cosnv PolEntry.sinmum TorEntry.sinnv mn1 mn2))
    (accGrid s num_full (term s nfp PolEntry.sinmum TorEntry.cosnv PolEntry.cosmum TorEntry.sinnv mn3 mn4)) (fun _ => 0)

/-- `covariant_b_derivatives.bsubsv` -/
noncomputable def bsubsv (nfp num_full : Int) (bsubs_full : Int → ℝ) : Int → ℝ :=
  let f_s := decomposeS s num_full (-1) bsubs_full
  let f_a := decomposeS s num_full 1 bsubs_full
  let mn1 := analyse s nfp PolEntry.sinmui TorEntry.cosnv f_s
  let mn2 := analyse s nfp PolEntry.cosmui TorEntry.sinnv f_s
  let mn3 := analyse s nfp PolEntry.cosmui TorEntry.cosnv f_a
  let mn4 := analyse s nfp PolEntry.sinmui TorEntry.sinnv f_a
  finish s num_full (accGrid s num_full (term s nfp PolEntry.sinmu TorEntry.sinnvn PolEntry.cosmu TorEntry.cosnvn mn1 mn2))
    (accGrid s num_full (term s nfp PolEntry.cosmu TorEntry.sinnvn PolEntry.sinmu TorEntry.cosnvn mn3 mn4)) (fun _ => 0)

end Verif.Output
