import Verif.Output.Geometry

/-!
# Model of the shape of the flux surfaces and of the local current ratios in the `threed1` file

`vmec/output_quantities/output_quantities.cc:3955-3972` (`loc_jpar_perp`, `loc_jparPS_perp`), `3974-4080` (`ygeo`, `yinden`, `yellip`, `ytrian`, `yshift`).  The loop over `psi` before it (3948-3953) is in `Threed1.lean`.

Exact reals, conventions of `Geometry.lean`; `DBL_EPSILON` is a parameter.  Where the code divides by zero the model says `0`; the theorems exclude this.  Array bounds are not modelled.
-/
namespace Verif.Output
open Verif

/-- the variables of the scan over one plane, 3991-3998 -/
structure Ext where
  minimum_z : ℝ
  maximum_z : ℝ
  minimum_x : ℝ
  maximum_x : ℝ
  rzmax : ℝ

/-- one point of the scan, 4026-4046 -/
noncomputable def Ext.visit (e : Ext) (yr1u yz1u : ℝ) : Ext :=
  let e := if yz1u ≥ e.maximum_z then { e with maximum_z := |yz1u|, rzmax := yr1u } else if yz1u ≤ e.minimum_z then { e with minimum_z := yz1u } else e
  if yr1u ≥ e.maximum_x then { e with maximum_x := yr1u } else if yr1u ≤ e.minimum_x then { e with minimum_x := yr1u } else e

namespace GeomIn
variable (I : GeomIn)

/-- `yr1u`, `xmida`, `xmidb`: even part plus `sqrtSF` times odd part of `R`, 4017-4021, 4050-4060; the index is `(jF * nZeta + k) * nThetaEff + l` -/
noncomputable def rAt (jF k l : Int) : ℝ :=
  let l_off := (jF * I.s.nZeta + k) * I.s.nThetaEff + l
  I.R.gridF .r_e l_off + I.R.profF .sqrtSF jF * I.R.gridF .r_o l_off
/-- the same for `Z`, 4022-4024 -/
noncomputable def zAt (jF k l : Int) : ℝ :=
  let l_off := (jF * I.s.nZeta + k) * I.s.nThetaEff + l
  I.R.gridF .z_e l_off + I.R.profF .sqrtSF jF * I.R.gridF .z_o l_off

/-- the scan over one plane of one surface, 3991-4048 -/
noncomputable def scan (jF k : Int) : Ext :=
  forRange 0 2 (fun icount e =>
    let k1 := if icount = 1 then (I.s.nZeta - k).tmod I.s.nZeta else k
    let t1 : ℝ := if icount = 1 then -1 else 1
    forRange 0 I.s.nThetaReduced (fun l e => e.visit (I.rAt jF k1 l) (t1 * I.zAt jF k1 l)) e)
    { minimum_z := I.dblMax, maximum_z := -I.dblMax, minimum_x := I.dblMax, maximum_x := -I.dblMax, rzmax := 0 }

/-- the loops over planes and surfaces, 3974-3989 and 4079-4080; the columns are arrays of `2 * ns` elements.  `break` in the last iteration of a loop is the same as skipping it. -/
noncomputable def column (f : Int → Int → ℝ) : Int → ℝ :=
  forRange 0 2 (fun nplanes a =>
    if nplanes > 0 ∧ I.s.nZeta = 1 then a
    else
      let k := if nplanes > 0 then I.s.nZeta.tdiv 2 else 0
      forRange 1 I.ns (fun jF a => upd a (nplanes * I.ns + jF) (f jF k)) a) (fun _ => 0)

/-- `xmida`, 4050-4054 -/
noncomputable def xmida (jF k : Int) : ℝ := I.rAt jF k (I.s.nThetaReduced - 1)
/-- `xmidb`, 4056-4060 -/
noncomputable def xmidb (jF k : Int) : ℝ := I.rAt jF k 0
/-- `rgeo`, 4063 -/
noncomputable def rgeo (jF k : Int) : ℝ := (I.xmidb jF k + I.xmida jF k) / 2
/-- `ygeo`, 4065 -/
noncomputable def ygeo : Int → ℝ := I.column fun jF k => (I.xmidb jF k - I.xmida jF k) / 2
/-- `yinden`, 4067-4068 -/
noncomputable def yinden : Int → ℝ := I.column fun jF k => (I.xmida jF k - (I.scan jF k).minimum_x) / ((I.scan jF k).maximum_x - (I.scan jF k).minimum_x)
/-- `yellip`, 4070-4071 -/
noncomputable def yellip : Int → ℝ := I.column fun jF k => ((I.scan jF k).maximum_z - (I.scan jF k).minimum_z) / ((I.scan jF k).maximum_x - (I.scan jF k).minimum_x)
/-- `ytrian`, 4073-4074 -/
noncomputable def ytrian : Int → ℝ := I.column fun jF k => (I.rgeo jF k - (I.scan jF k).rzmax) / ((I.scan jF k).maximum_x - (I.scan jF k).minimum_x)
/-- `yshift`, 4076-4078 -/
noncomputable def yshift : Int → ℝ := I.column fun jF k =>
  let r_axis := I.R.gridF .r_e (k * I.s.nThetaEff + 0)
  (r_axis - I.rgeo jF k) / ((I.scan jF k).maximum_x - (I.scan jF k).minimum_x)

/-- `jperp2` of the loop over the surfaces, 3958-3963 -/
noncomputable def jperp2' (eps : ℝ) (jF : Int) : ℝ := if I.jperp2 jF ≠ 0 then I.jperp2 jF else eps
/-- `loc_jpar_perp`, 3955-3965 -/
noncomputable def loc_jpar_perp (eps : ℝ) : Int → ℝ := forRange 1 I.ns (fun jF a => upd a jF (I.jpar2 jF / I.jperp2' eps jF)) (fun _ => 0)
/-- `loc_jparPS_perp`, 3956 and 3966-3970 -/
noncomputable def loc_jparPS_perp (eps : ℝ) : Int → ℝ := forRange 1 I.ns (fun jF a => upd a jF (if jF < I.ns - 1 then I.jPS2 jF / I.jperp2' eps jF else 0)) (fun _ => 0)

end GeomIn
end Verif.Output
