import Verif.Output.Fill
import Verif.Fourier.Basis

/-!
# Model of the Nyquist spectrum of the `wout` file

`vmec/output_quantities/output_quantities.cc:4549-4571` (scaled tables), `4701-4714` (`|B|`), `4716-5038` (half grid),
`5052-5068` (axis value of `bsubsmns`), `5070-5182` (full grid).

The seven fields are accumulated side by side in the same loops; the accumulators do not interact, so that the transform of one field is
modelled, with the parity and the kernel as parameters. The thread-local work arrays `Fc_*`, `Fs_*` are overwritten completely for every
surface and are modelled as local to the surface (C118 shows that this is right). A matrix `wout.x(mn, j)` is a function of row and column. Exact reals; array bounds are not modelled.
-/
namespace Verif.Output
open Verif Verif.Fourier

section
variable (s : Sizes.Sizes)

/-- local copy of `cosmui` with the last mode halved, `output_quantities.cc:4550-4559` -/
noncomputable def cosmuiNyq : Int → ℝ :=
  let a := forRange 0 (s.nThetaReduced * (s.mnyq2 + 1)) (fun ml a => upd a ml (polTables fastPoloidal s ml).cosmui) (fun _ => 0)
  if s.mnyq ≠ 0 then
    forRange 0 s.nThetaReduced (fun l a =>
      let ml := s.mnyq * s.nThetaReduced + l
      upd a ml (a ml / 2)) a
  else a

/-- local copy of `cosnv` with the last mode halved, `output_quantities.cc:4561-4571` -/
noncomputable def cosnvNyq (nfp : Int) : Int → ℝ :=
  let a := forRange 0 ((s.nnyq2 + 1) * s.nZeta) (fun kn a => upd a kn (torTables fastPoloidal s nfp kn).cosnv) (fun _ => 0)
  if s.nnyq ≠ 0 then
    forRange 0 s.nZeta (fun k a =>
      let kn := k * (s.nnyq2 + 1) + s.nnyq
      upd a kn (a kn / 2)) a
  else a

/-- `|B|` on the half grid (called `magnetic_pressure`), `output_quantities.cc:4701-4714` -/
noncomputable def absB (ns : Int) (total_pressure presH : Int → ℝ) : Int → ℝ :=
  fillGrid 0 (ns - 1) s.nZnT (fun jH kl => Real.sqrt (2 * |total_pressure (jH * s.nZnT + kl) - presH jH|))

/-- the value that enters the sums: with `lasym` half the sum (`sign = 1`) or difference (`sign = -1`) with the reflected point,
    `output_quantities.cc:4850-4898` and `5113-5130` -/
noncomputable def nyqPart (sign : ℝ) (f : Int → ℝ) (j k l : Int) : ℝ :=
  let idx_kl := (j * s.nZeta + k) * s.nThetaEff + l
  if s.lasym then
    let k_rev := (s.nZeta - k).tmod s.nZeta
    let l_rev := (s.nThetaEff - l).tmod s.nThetaEff
    let idx_kl_rev := (j * s.nZeta + k_rev) * s.nThetaEff + l_rev
    1 / 2 * (f idx_kl + sign * f idx_kl_rev)
  else f idx_kl

/-- poloidal sums, `output_quantities.cc:4814-4941` and `5106-5143`; `tab` is `cosmui` or `sinmui` -/
noncomputable def nyqPoloidal (tab : Int → ℝ) (g : Int → Int → ℝ) : Int → ℝ :=
  forRange 0 (s.mnyq + 1) (fun m F =>
    forRange 0 s.nZeta (fun k F =>
      upd F (m * s.nZeta + k) (forRange 0 s.nThetaReduced (fun l a => a + tab (m * s.nThetaReduced + l) * g k l) 0)) F) (fun _ => 0)

/-- the factor in front of a coefficient, `output_quantities.cc:4956-4961` and `5152-5155` -/
noncomputable def nyqMult (m n : Int) : ℝ :=
  let dmult := fillScale (s.mnyq2 + 1) m * fillScale (s.nnyq2 + 1) |n| * (1 / 2)
  if m = 0 ∨ n = 0 then dmult * 2 else dmult

/-- toroidal sum with the kernel `cos(mu - nv)`, `output_quantities.cc:4954-4988` -/
noncomputable def nyqCos (nfp : Int) (Fc Fs : Int → ℝ) (xm xn : Int) : ℝ :=
  let n := xn.tdiv nfp
  nyqMult s xm n * forRange 0 s.nZeta (fun k acc =>
    let kn := k * (s.nnyq2 + 1) + |n|
    acc + (cosnvNyq s nfp kn * Fc (xm * s.nZeta + k) + n.sign * (torTables fastPoloidal s nfp kn).sinnv * Fs (xm * s.nZeta + k))) 0

/-- toroidal sum with the kernel `sin(mu - nv)`, `output_quantities.cc:4954-4988` -/
noncomputable def nyqSin (nfp : Int) (Fc Fs : Int → ℝ) (xm xn : Int) : ℝ :=
  let n := xn.tdiv nfp
  nyqMult s xm n * forRange 0 s.nZeta (fun k acc =>
    let kn := k * (s.nnyq2 + 1) + |n|
    acc + (cosnvNyq s nfp kn * Fs (xm * s.nZeta + k) - n.sign * (torTables fastPoloidal s nfp kn).sinnv * Fc (xm * s.nZeta + k))) 0

/-- fill column `j + shift` of the coefficient matrix for `num` surfaces: `shift = 1`, `num = ns - 1` for the half grid
    (`output_quantities.cc:4990-5038`), `shift = 0`, `num = ns` for the full grid (`5146-5176`) -/
noncomputable def nyqFill (num shift : Int) (v : Int → Int → ℝ) : Int → Int → ℝ :=
  forRange 0 num (fun j w =>
    forRange 0 s.mnmax_nyq (fun mn w => fun r c => if r = mn ∧ c = j + shift then v j mn else w r c) w) (fun _ _ => 0)

/-- `cos(mu - nv)` coefficients of the array `f`; `sign` selects the parity -/
noncomputable def nyqCosMatrix (nfp num shift : Int) (xm xn : Int → Int) (sign : ℝ) (f : Int → ℝ) : Int → Int → ℝ :=
  nyqFill s num shift (fun j mn =>
    nyqCos s nfp (nyqPoloidal s (cosmuiNyq s) (nyqPart s sign f j)) (nyqPoloidal s (fun ml => (polTables fastPoloidal s ml).sinmui) (nyqPart s sign f j)) (xm mn) (xn mn))

/-- `sin(mu - nv)` coefficients of the array `f` -/
noncomputable def nyqSinMatrix (nfp num shift : Int) (xm xn : Int → Int) (sign : ℝ) (f : Int → ℝ) : Int → Int → ℝ :=
  nyqFill s num shift (fun j mn =>
    nyqSin s nfp (nyqPoloidal s (cosmuiNyq s) (nyqPart s sign f j)) (nyqPoloidal s (fun ml => (polTables fastPoloidal s ml).sinmui) (nyqPart s sign f j)) (xm mn) (xn mn))

/-- `gmnc`, `bmnc`, `bsubumnc`, `bsubvmnc`, `bsupumnc`, `bsupvmnc` of a half-grid field, `output_quantities.cc:4990-4996` -/
noncomputable def halfMnc (nfp ns : Int) (xm xn : Int → Int) (f : Int → ℝ) : Int → Int → ℝ := nyqCosMatrix s nfp (ns - 1) 1 xm xn 1 f

/-- `gmns`, ..., `bsupvmns`, only with `lasym`, `output_quantities.cc:5031-5037` -/
noncomputable def halfMns (nfp ns : Int) (xm xn : Int → Int) (f : Int → ℝ) : Int → Int → ℝ :=
  if s.lasym then nyqSinMatrix s nfp (ns - 1) 1 xm xn (-1) f else fun _ _ => 0

/-- column 0 of `bsubsmns`, `bsubsmnc`, `output_quantities.cc:5057-5068` -/
noncomputable def axisColumn (w : Int → Int → ℝ) : Int → Int → ℝ :=
  forRange 0 s.mnmax_nyq (fun mn w => fun r c => if r = mn ∧ c = 0 then 2 * w mn 1 - w mn 2 else w r c) w

/-- `bsubsmns`, `output_quantities.cc:4994,5058-5061` -/
noncomputable def bsubsmns (nfp ns : Int) (xm xn : Int → Int) (f : Int → ℝ) : Int → Int → ℝ :=
  axisColumn s (nyqSinMatrix s nfp (ns - 1) 1 xm xn (-1) f)

/-- `bsubsmnc`, `output_quantities.cc:5035,5062-5067` -/
noncomputable def bsubsmnc (nfp ns : Int) (xm xn : Int → Int) (f : Int → ℝ) : Int → Int → ℝ :=
  if s.lasym then axisColumn s (nyqCosMatrix s nfp (ns - 1) 1 xm xn 1 f) else fun _ _ => 0

/-- `bsubsmns_full`, `output_quantities.cc:5079,5172` -/
noncomputable def bsubsmns_full (nfp ns : Int) (xm xn : Int → Int) (f : Int → ℝ) : Int → Int → ℝ := nyqSinMatrix s nfp ns 0 xm xn (-1) f

/-- `bsubsmnc_full`, `output_quantities.cc:5081,5174` -/
noncomputable def bsubsmnc_full (nfp ns : Int) (xm xn : Int → Int) (f : Int → ℝ) : Int → Int → ℝ :=
  if s.lasym then nyqCosMatrix s nfp ns 0 xm xn 1 f else fun _ _ => 0

end
end Verif.Output
