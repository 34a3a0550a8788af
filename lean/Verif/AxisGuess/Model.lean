import Verif.Fourier.Basis

/-!
# Model of `vmec/boundaries/guess_magnetic_axis.cc`

`RecomputeMagneticAxisToFixJacobianSign` (lines 12-506) and the copy back in `boundaries.cc:256-274`.
The grid search of one plane is over any ordered field (it only adds, multiplies and compares); the rest is over
`ℝ`. All arrays are `std::vector`s, so entries that are never assigned are zero.
-/
namespace Verif.AxisGuess
open Verif

/-! ## grid search in one toroidal plane, lines 382-451 -/
section search
variable {K : Type} [Field K] [LinearOrder K]

/-- `kNumberOfGridPoints`, line 78 -/
def kNumberOfGridPoints : Int := 61

/-- `*std::min_element(v.begin(), v.end())` of the first `n ≥ 1` entries -/
def minElement (n : Int) (v : Int → K) : K := forRange 1 n (fun l b => if v l < b then v l else b) (v 0)

/-- `*std::max_element(v.begin(), v.end())` -/
def maxElement (n : Int) (v : Int → K) : K := forRange 1 n (fun l b => if b < v l then v l else b) (v 0)

/-- what the search of a plane reads -/
structure Plane (K : Type) where
  nThetaEven : Int
  sign_of_jacobian : K
  /-- does the early exit apply to this plane? line 417 -/
  zeroZ : Bool
  r_lcfs : Int → K
  z_lcfs : Int → K
  tau0 : Int → K
  d_r_d_theta_half : Int → K
  d_z_d_theta_half : Int → K

/-- best minimum so far and the position -/
structure Best (K : Type) where
  min_tau : K
  r : K
  z : K
  deriving DecidableEq, Repr

variable (p : Plane K)

def Plane.min_r : K := minElement p.nThetaEven p.r_lcfs
def Plane.max_r : K := maxElement p.nThetaEven p.r_lcfs
def Plane.min_z : K := minElement p.nThetaEven p.z_lcfs
def Plane.max_z : K := maxElement p.nThetaEven p.z_lcfs

/-- `delta_r`, line 394 -/
def Plane.delta_r : K := (p.max_r - p.min_r) / ((kNumberOfGridPoints : K) - 1)
/-- `delta_z`, line 395 -/
def Plane.delta_z : K := (p.max_z - p.min_z) / ((kNumberOfGridPoints : K) - 1)

/-- `r_grid`, line 425 -/
def Plane.rGrid (index_r : Int) : K := p.min_r + index_r * p.delta_r

/-- `z_grid` before the early exit, line 414 -/
def Plane.zGrid (index_z : Int) : K := p.min_z + index_z * p.delta_z

/-- `tau[k][l]`, lines 430-434 -/
def Plane.tau (r_grid z_grid : K) (l : Int) : K :=
  p.sign_of_jacobian * (p.tau0 l - p.d_r_d_theta_half l * z_grid + p.d_z_d_theta_half l * r_grid)

/-- `min_tau_temp`, lines 430-437 -/
def Plane.minTau (r_grid z_grid : K) : K := minElement p.nThetaEven (p.tau r_grid z_grid)

/-- lines 439-448 -/
def Plane.visit (r_grid z_grid : K) (b : Best K) : Best K :=
  let min_tau_temp := p.minTau r_grid z_grid
  if min_tau_temp > b.min_tau then { min_tau := min_tau_temp, r := r_grid, z := z_grid }
  else if min_tau_temp = b.min_tau then
    (if |b.z| > |z_grid| then { b with z := z_grid } else b)
  else b

/-- the loop over `index_r`, lines 424-449 -/
def Plane.row (z_grid : K) (b : Best K) : Best K :=
  forRange 0 kNumberOfGridPoints (fun index_r b => p.visit (p.rGrid index_r) z_grid b) b

/-- centre of the grid, lines 398-399, and `min_tau = 0`, line 411 -/
def Plane.start : Best K := { min_tau := 0, r := (p.max_r + p.min_r) / 2, z := (p.max_z + p.min_z) / 2 }

/-- lines 413-450; the `break` at `index_z = 1` leaves one pass with `z_grid = 0` -/
def Plane.search : Best K :=
  if p.zeroZ then p.row 0 p.start
  else forRange 0 kNumberOfGridPoints (fun index_z b => p.row (p.zGrid index_z) b) p.start

end search

/-! ## the whole function -/

/-- the basis tables, by mode number and grid point (layout: `fourier_basis.cc`, property C12) -/
structure Basis where
  cosmu : Int → Int → ℝ
  sinmu : Int → Int → ℝ
  cosmum : Int → Int → ℝ
  sinmum : Int → Int → ℝ
  cosnv : Int → Int → ℝ
  sinnv : Int → Int → ℝ
  mscale : Int → ℝ
  nscale : Int → ℝ

/-- the tables as the code fills them -/
noncomputable def codeBasis (L : Fourier.Layout) (s : Sizes.Sizes) (nfp : Int) : Basis where
  cosmu m l := (Fourier.pol L s m l).cosmu
  sinmu m l := (Fourier.pol L s m l).sinmu
  cosmum m l := (Fourier.pol L s m l).cosmum
  sinmum m l := (Fourier.pol L s m l).sinmum
  cosnv n k := (Fourier.tor L s nfp n k).cosnv
  sinnv n k := (Fourier.tor L s nfp n k).sinnv
  mscale := Fourier.fillScale (s.mnyq2 + 1)
  nscale := Fourier.fillScale (s.nnyq2 + 1)

/-- arguments; boundary arrays by `(m, n)` (position `m * (ntor + 1) + n`) -/
structure In where
  s : Sizes.Sizes
  t : Basis
  ns : Int
  sign_of_jacobian : Int
  rbcc : Int → Int → ℝ
  rbss : Int → Int → ℝ
  rbsc : Int → Int → ℝ
  rbcs : Int → Int → ℝ
  zbsc : Int → Int → ℝ
  zbcs : Int → Int → ℝ
  zbcc : Int → Int → ℝ
  zbss : Int → Int → ℝ
  raxis_c : Int → ℝ
  raxis_s : Int → ℝ
  zaxis_s : Int → ℝ
  zaxis_c : Int → ℝ

variable (a : In)

/-- `ns12`, line 82 -/
def In.ns12 : Int := (a.ns + 1).tdiv 2 - 1

/-- `delta_s`, lines 85-86 -/
noncomputable def In.delta_s : ℝ := ((a.ns - 1 - a.ns12 : Int) : ℝ) / ((a.ns : ℝ) - 1)

/-- `sqrtSF12`, line 89 -/
noncomputable def In.sqrtSF12 : ℝ := Real.sqrt ((a.ns12 : ℝ) / ((a.ns : ℝ) - 1))

/-- `rss_boundary`, `zcs_boundary`, `rsc_boundary`, `zcc_boundary`: undoing the m=1 constraint, lines 115-154 -/
noncomputable def In.rssB (m n : Int) : ℝ := if m = 1 then (a.rbss m n + a.zbcs m n) * 1 else a.rbss m n
noncomputable def In.zcsB (m n : Int) : ℝ := if m = 1 then (a.rbss m n - a.zbcs m n) * 1 else a.zbcs m n
noncomputable def In.rscB (m n : Int) : ℝ := if m = 1 then (a.rbsc m n + a.zbcc m n) * 1 else a.rbsc m n
noncomputable def In.zccB (m n : Int) : ℝ := if m = 1 then (a.rbsc m n - a.zbcc m n) * 1 else a.zbcc m n

/-- coefficients at about mid-radius, lines 174-221: `b` is the boundary coefficient, `ax` the signed axis
    coefficient (zero where the code has no axis term) -/
noncomputable def In.half (b : Int → Int → ℝ) (ax : Int → ℝ) (m n : Int) : ℝ :=
  if m = 0 then a.sqrtSF12 * a.sqrtSF12 * b m n + (1 - a.sqrtSF12 * a.sqrtSF12) * ax n
  else a.sqrtSF12 ^ m.toNat * b m n

/-- one of the eight accumulations at lines 243-324: `c1` is multiplied with `u * cosnv`, `c2` with `v * sinnv`
    (3D), `c3` with `v * cosnv` (asymmetric), `c4` with `u * sinnv` (both). The eight are independent of each
    other and written as eight separate sums. -/
noncomputable def In.acc (c1 c2 c3 c4 : Int → Int → ℝ) (u v : Int → Int → ℝ) (k l : Int) : ℝ :=
  forRange 0 a.s.mpol (fun m x => forRange 0 (a.s.ntor + 1) (fun n x =>
    let basis_norm := 1 / (a.t.mscale m * a.t.nscale n)
    let x := x + basis_norm * c1 m n * u m l * a.t.cosnv n k
    let x := if a.s.lthreed then x + basis_norm * c2 m n * v m l * a.t.sinnv n k else x
    if a.s.lasym then
      let x := x + basis_norm * c3 m n * v m l * a.t.cosnv n k
      if a.s.lthreed then x + basis_norm * c4 m n * u m l * a.t.sinnv n k else x
    else x) x) 0

/-- the eight arrays that the flip-mirror step extends -/
inductive G where
  | r_lcfs | z_lcfs | dr_lcfs | dz_lcfs | r_half | z_half | dr_half | dz_half
  deriving DecidableEq

/-- the value assigned at `(k, l)`, lines 230-332 -/
noncomputable def In.point (g : G) (k l : Int) : ℝ :=
  let rl := a.acc a.rbcc a.rssB a.rscB a.rbcs
  let zl := a.acc a.zbsc a.zcsB a.zccB a.zbss
  let rh := a.acc (a.half a.rbcc a.raxis_c) (a.half a.rssB fun _ => 0) (a.half a.rscB fun _ => 0)
    (a.half a.rbcs fun n => -a.raxis_s n)
  let zh := a.acc (a.half a.zbsc fun _ => 0) (a.half a.zcsB fun n => -a.zaxis_s n) (a.half a.zccB a.zaxis_c)
    (a.half a.zbss fun _ => 0)
  match g with
  | .r_lcfs => rl a.t.cosmu a.t.sinmu k l
  | .z_lcfs => zl a.t.sinmu a.t.cosmu k l
  | .dr_lcfs => rl a.t.sinmum a.t.cosmum k l
  | .dz_lcfs => zl a.t.cosmum a.t.sinmum k l
  | .r_half => rh a.t.cosmu a.t.sinmu k l
  | .z_half => zh a.t.sinmu a.t.cosmu k l
  | .dr_half => (rl a.t.sinmum a.t.cosmum k l + rh a.t.sinmum a.t.cosmum k l) / 2
  | .dz_half => (zl a.t.cosmum a.t.sinmum k l + zh a.t.cosmum a.t.sinmum k l) / 2

/-- the geometry arrays of the workspace: (array, plane, poloidal point) -/
abbrev Geo := G × Int × Int → ℝ

/-- assignment with index check: the rows have `nThetaEven` entries (lines 32-50) -/
noncomputable def In.put (w : Geo) (k l : Int) (v : G → ℝ) : Outcome Geo :=
  if (0 ≤ k ∧ k < a.s.nZeta) ∧ 0 ≤ l ∧ l < a.s.nThetaEven then
    .ok (fun x => if x.2.1 = k ∧ x.2.2 = l then v x.1 else w x)
  else .ub "geometry index"

/-- lines 230-333, on arrays of zeros -/
noncomputable def In.synthesis : Outcome Geo :=
  forRangeM 0 a.s.nZeta (fun k w => forRangeM 0 a.s.nThetaReduced (fun l w =>
    a.put w k l (fun g => a.point g k l)) w) (fun _ => 0)

/-- sign with which an array is mirrored, lines 344-352 -/
def G.mirrorSign : G → ℝ
  | .r_lcfs => 1 | .z_lcfs => -1 | .dr_lcfs => -1 | .dz_lcfs => 1
  | .r_half => 1 | .z_half => -1 | .dr_half => -1 | .dz_half => 1

/-- lines 337-355 -/
noncomputable def In.mirror (w : Geo) : Outcome Geo :=
  if a.s.lasym then .ok w
  else forRangeM 0 a.s.nZeta (fun k w => forRangeM 1 (a.s.nThetaReduced - 1) (fun l w =>
    a.put w ((a.s.nZeta - k).tmod a.s.nZeta) ((a.s.nThetaEven - l).tmod a.s.nThetaEven)
      (fun g => g.mirrorSign * w (g, k, l))) w) w

/-- `r_axis[k]`, lines 359-378 -/
noncomputable def In.r_axis (k : Int) : ℝ :=
  forRange 0 (a.s.ntor + 1) (fun n x =>
    let basis_norm := 1 / (a.t.mscale 0 * a.t.nscale n)
    let x := x + a.raxis_c n * a.t.cosnv n k * basis_norm
    if a.s.lasym then x - a.raxis_s n * a.t.sinnv n k * basis_norm else x) 0

/-- `z_axis[k]` -/
noncomputable def In.z_axis (k : Int) : ℝ :=
  forRange 0 (a.s.ntor + 1) (fun n x =>
    let basis_norm := 1 / (a.t.mscale 0 * a.t.nscale n)
    let x := x - a.zaxis_s n * a.t.sinnv n k * basis_norm
    if a.s.lasym then x + a.zaxis_c n * a.t.cosnv n k * basis_norm else x) 0

/-- what the search of plane `k` reads: lines 384-409 -/
noncomputable def In.plane (w : Geo) (k : Int) : Plane ℝ where
  nThetaEven := a.s.nThetaEven
  sign_of_jacobian := a.sign_of_jacobian
  zeroZ := !a.s.lasym && (decide (k = 0) || decide (k = a.s.nZeta.tdiv 2))
  r_lcfs l := w (.r_lcfs, k, l)
  z_lcfs l := w (.z_lcfs, k, l)
  tau0 l :=
    let d_r_d_s := (w (.r_lcfs, k, l) - w (.r_half, k, l)) / a.delta_s + a.r_axis k
    let d_z_d_s := (w (.z_lcfs, k, l) - w (.z_half, k, l)) / a.delta_s + a.z_axis k
    w (.dr_half, k, l) * d_z_d_s - w (.dz_half, k, l) * d_r_d_s
  d_r_d_theta_half l := w (.dr_half, k, l)
  d_z_d_theta_half l := w (.dz_half, k, l)

/-- `new_r_axis`, `new_z_axis` -/
abbrev Pos := Int → ℝ × ℝ

/-- assignment to both arrays, which have `nZeta` entries -/
noncomputable def In.putPos (p : Pos) (k : Int) (v : ℝ × ℝ) : Outcome Pos :=
  if 0 ≤ k ∧ k < a.s.nZeta then .ok (upd p k v) else .ub "axis index"

/-- the main loop, lines 382-451, with `searchOf k` the result of the grid search -/
noncomputable def In.mainLoop (searchOf : Int → ℝ × ℝ) : Outcome Pos :=
  forRangeM 0 (a.s.nZeta.tdiv 2 + 1) (fun k p => a.putPos p k (searchOf k)) (fun _ => (0, 0))

/-- mirror of the positions, lines 456-462 -/
noncomputable def In.mirrorPos (p : Pos) : Outcome Pos :=
  if a.s.lasym then .ok p
  else forRangeM 1 (a.s.nZeta.tdiv 2) (fun k p =>
    a.putPos p ((a.s.nZeta - k).tmod a.s.nZeta) ((p k).1, -(p k).2)) p

/-- result of the grid search in plane `k` -/
noncomputable def In.found (w : Geo) (k : Int) : ℝ × ℝ :=
  let b := (a.plane w k).search
  (b.r, b.z)

/-- the axis positions on all planes -/
noncomputable def In.positions : Outcome Pos := do
  let w ← a.synthesis
  let w ← a.mirror w
  let p ← a.mainLoop (a.found w)
  a.mirrorPos p

/-- one accumulated coefficient, lines 465-482: `c` is the table, `sg` the sign -/
noncomputable def In.analyse (sg : ℝ) (c : Int → Int → ℝ) (x : Int → ℝ) (n : Int) : ℝ :=
  forRange 0 a.s.nZeta (fun k y => y + sg * (2 / (a.s.nZeta : ℝ) * c n k * x k / a.t.nscale n)) 0

/-- halving of the `n = 0` and the Nyquist entry, lines 484-501 -/
noncomputable def In.fixup (x : Int → ℝ) : Int → ℝ :=
  let x := upd x 0 (x 0 / 2)
  if a.s.ntor > 0 ∧ a.s.ntor ≥ a.s.nZeta.tdiv 2 then upd x (a.s.nZeta.tdiv 2) (x (a.s.nZeta.tdiv 2) / 2) else x

/-- the new axis coefficients -/
structure Axis where
  raxis_c : Int → ℝ
  zaxis_s : Int → ℝ
  raxis_s : Int → ℝ
  zaxis_c : Int → ℝ

/-- transform of the positions, lines 465-501, and copy back (`boundaries.cc:266-273`; without asymmetry the
    asymmetric coefficients stay) -/
noncomputable def In.transform (p : Pos) : Axis where
  raxis_c := a.fixup (a.analyse 1 a.t.cosnv fun k => (p k).1)
  zaxis_s := a.analyse (-1) a.t.sinnv fun k => (p k).2
  raxis_s := if a.s.lasym then a.analyse (-1) a.t.sinnv fun k => (p k).1 else a.raxis_s
  zaxis_c := if a.s.lasym then a.fixup (a.analyse 1 a.t.cosnv fun k => (p k).2) else a.zaxis_c

/-- `RecomputeMagneticAxisToFixJacobianSign` -/
noncomputable def In.recompute : Outcome Axis := do
  let p ← a.positions
  .ok (a.transform p)

end Verif.AxisGuess
