import Verif.Nestor.Surface
import Verif.Nestor.GreenSpec
import Verif.Nestor.Laplace

/-! # Models of `ExternalMagneticField` and of the end of `Nestor::update`

`free_boundary/external_magnetic_field/external_magnetic_field.cc`, `free_boundary/nestor/nestor.cc`.  Exact reals.  Arrays of interleaved Cartesian
components (`axisXYZ`, `surfaceXYZ`, `bCoilsXYZ`) are arrays of triples.  Array bounds are not modelled. -/
namespace Verif.Nestor
open Verif Fourier

/-- `nvper_`, `external_magnetic_field.cc:24`, `external_magnetic_field.h:69` -/
def nvper (s : Sizes.Sizes) : Int := if s.nZeta = 1 then 64 else s.nfp

/-- `cos_phi`, `sin_phi`, `surface_geometry.cc:92-97` -/
noncomputable def phiOf (s : Sizes.Sizes) (k : Int) : ℝ := 2 * Real.pi / (s.nfp * s.nZeta : Int) * k

/-- `axisXYZ`, `external_magnetic_field.cc:165-193` -/
noncomputable def axisXYZ (s : Sizes.Sizes) (rAxis zAxis : Int → ℝ) : Int → V3 :=
  let a : Int → V3 := fun _ => ⟨0, 0, 0⟩
  let a := forRange 0 s.nZeta (fun k a => upd a k ⟨rAxis k * Real.cos (phiOf s k), rAxis k * Real.sin (phiOf s k), zAxis k⟩) a
  let omega_per := 2 * Real.pi / nvper s
  let a := forRange 1 (nvper s) (fun p a =>
    let cos_per := Real.cos (omega_per * p)
    let sin_per := Real.sin (omega_per * p)
    forRange 0 s.nZeta (fun k a =>
      upd a (p * s.nZeta + k) ⟨cos_per * (a k).x - sin_per * (a k).y, sin_per * (a k).x + cos_per * (a k).y, zAxis k⟩) a) a
  upd a (s.nZeta * nvper s) (a 0)

/-- contribution of a segment, `external_magnetic_field.cc:222-270` -/
noncomputable def segmentField (current : ℝ) (a b P : V3) : V3 :=
  let magnetic_field_scale := 1e-7 * current * 2
  let dx := b.x - a.x
  let dy := b.y - a.y
  let dz := b.z - a.z
  let segment_length := √(dx * dx + dy * dy + dz * dz)
  let ix := P.x - a.x
  let iy := P.y - a.y
  let iz := P.z - a.z
  let r_i := √(ix * ix + iy * iy + iz * iz)
  let fx := P.x - b.x
  let fy := P.y - b.y
  let fz := P.z - b.z
  let r_f := √(fx * fx + fy * fy + fz * fz)
  let sum := r_i + r_f
  let magnitude := magnetic_field_scale * sum / (r_i * r_f * (sum * sum - segment_length * segment_length))
  ⟨magnitude * (dy * iz - dz * iy), magnitude * (dz * ix - dx * iz), magnitude * (dx * iy - dy * ix)⟩

def V3.add (a b : V3) : V3 := ⟨a.x + b.x, a.y + b.y, a.z + b.z⟩

/-- `bCoilsXYZ` at a point, `external_magnetic_field.cc:217-274`; the loops over segments and points are exchanged (each point has its own sum) -/
noncomputable def axisField (s : Sizes.Sizes) (axis : Int → V3) (current : ℝ) (P : V3) : V3 :=
  forRange 0 (s.nZeta * nvper s) (fun i b => b.add (segmentField current (axis i) (axis (i + 1)) P)) ⟨0, 0, 0⟩

/-- field on the points of the thread, and covariant components -/
structure Ext where
  bSubU : Int → ℝ
  bSubV : Int → ℝ
  bDotN : Int → ℝ

namespace SCtx
variable (c : SCtx)

/-- `surfaceXYZ`, `external_magnetic_field.cc:201-206` -/
noncomputable def surfaceXYZ (sg : Surf) (kl : Int) : V3 :=
  let k := kl.tmod c.s.nZeta
  ⟨sg.r1b kl * Real.cos (phiOf c.s k), sg.r1b kl * Real.sin (phiOf c.s k), sg.z1b kl⟩

/-- `curtorBr`, `curtorBp`, `curtorBz`, `external_magnetic_field.cc:280-296` -/
noncomputable def curtor (sg : Surf) (axis : Int → V3) (current : ℝ) (kl : Int) : V3 :=
  let k := kl.tmod c.s.nZeta
  let b := axisField c.s axis current (c.surfaceXYZ sg kl)
  ⟨Real.cos (phiOf c.s k) * b.x + Real.sin (phiOf c.s k) * b.y, Real.cos (phiOf c.s k) * b.y - Real.sin (phiOf c.s k) * b.x, b.z⟩

/-- `covariantAndNormalComponents`, `external_magnetic_field.cc:301-330`; `a` holds `rub`, ... and `interp` the interpolated field.  `r1b` is `a (r, b)`
for the points of the threads. -/
noncomputable def covariant (a : SArr) (sg : Surf) (interp : Int → V3) (axis : Int → V3) (current : ℝ) : Ext :=
  let full (o : Int) : V3 := (interp o).add (c.curtor sg axis current (o + c.ztMin))
  let d (f : Base × Der) (o : Int) : ℝ := a f (o + c.ztMin - c.derivOffset)
  { bSubU := fun o => (full o).x * d (.r, .u) o + (full o).z * d (.z, .u) o
    bSubV := fun o => (full o).x * d (.r, .v) o + (full o).z * d (.z, .v) o + (full o).y * sg.r1b (o + c.ztMin)
    bDotN := fun o => -((full o).x * sg.snr o + (full o).y * sg.snv o + (full o).z * sg.snz o) }

/-! ## end of `Nestor::update` -/

/-- tables at a point, `nestor.cc:144-173` -/
noncomputable def cosPot (mf nf : Int) (kl mn : Int) : ℝ :=
  let l := kl.tdiv c.s.nZeta
  let k := kl.tmod c.s.nZeta
  let lr := if l < c.s.nThetaReduced then l else c.s.nThetaEven - l
  let sgnmu : ℝ := if l < c.s.nThetaReduced then 1 else -1
  let n := mn.tdiv (mf + 1) - nf
  let m := mn.tmod (mf + 1)
  let abs_n : Int := |n|
  let sign_n : Int := Int.sign n
  let cosmu := (c.fp m lr).cosmu / fillScale (c.s.mnyq2 + 1) m
  let sinmu := sgnmu * (c.fp m lr).sinmu / fillScale (c.s.mnyq2 + 1) m
  let cosnv := (c.ft abs_n k).cosnv / fillScale (c.s.nnyq2 + 1) abs_n
  let sinnv := (c.ft abs_n k).sinnv / fillScale (c.s.nnyq2 + 1) abs_n
  cosmu * cosnv + sign_n * sinmu * sinnv

noncomputable def sinPot (mf nf : Int) (kl mn : Int) : ℝ :=
  let l := kl.tdiv c.s.nZeta
  let k := kl.tmod c.s.nZeta
  let lr := if l < c.s.nThetaReduced then l else c.s.nThetaEven - l
  let sgnmu : ℝ := if l < c.s.nThetaReduced then 1 else -1
  let n := mn.tdiv (mf + 1) - nf
  let m := mn.tmod (mf + 1)
  let abs_n : Int := |n|
  let sign_n : Int := Int.sign n
  let cosmu := (c.fp m lr).cosmu / fillScale (c.s.mnyq2 + 1) m
  let sinmu := sgnmu * (c.fp m lr).sinmu / fillScale (c.s.mnyq2 + 1) m
  let cosnv := (c.ft abs_n k).cosnv / fillScale (c.s.nnyq2 + 1) abs_n
  let sinnv := (c.ft abs_n k).sinnv / fillScale (c.s.nnyq2 + 1) abs_n
  sinmu * cosnv - sign_n * cosmu * sinnv

/-- `potU`, `potV` at a point, `nestor.cc:127-180`; each point has its own sum -/
noncomputable def potUV (mf nf : Int) (bvec : Int → ℝ) (kl : Int) : ℝ × ℝ :=
  let mnpd := (mf + 1) * (2 * nf + 1)
  forRange 0 mnpd (fun mn p =>
    let n := mn.tdiv (mf + 1) - nf
    let m := mn.tmod (mf + 1)
    let p : ℝ × ℝ := (p.1 + bvec mn * m * c.cosPot mf nf kl mn, p.2 + bvec mn * (-n * c.s.nfp) * c.cosPot mf nf kl mn)
    if c.s.lasym then
      (p.1 - bvec (mnpd + mn) * m * c.sinPot mf nf kl mn, p.2 - bvec (mnpd + mn) * (-n * c.s.nfp) * c.sinPot mf nf kl mn)
    else p) (0, 0)

/-- covariant components on the points of the thread and the thread's share of their averages, `nestor.cc:182-192` -/
noncomputable def bSub (mf nf : Int) (bvec : Int → ℝ) (ef : Ext) (kl : Int) : ℝ × ℝ :=
  ((c.potUV mf nf bvec kl).1 + ef.bSubU (kl - c.ztMin), (c.potUV mf nf bvec kl).2 + ef.bSubV (kl - c.ztMin))

noncomputable def localSub (mf nf : Int) (bvec : Int → ℝ) (ef : Ext) : ℝ × ℝ :=
  let p := forRange c.ztMin c.ztMax (fun kl (p : ℝ × ℝ) =>
    let l := kl.tdiv c.s.nZeta
    (p.1 + (c.bSub mf nf bvec ef kl).1 * Sizes.wInt c.s l, p.2 + (c.bSub mf nf bvec ef kl).2 * Sizes.wInt c.s l)) (0, 0)
  (p.1 * (c.signOfJacobian * 2 * Real.pi), p.2)

/-- `bSubUVac`, `bSubVVac`: reset, then the shares of the threads are added in the order in which they enter the critical section, `nestor.cc:194-211` -/
noncomputable def netSub (shares : List (ℝ × ℝ)) : ℝ × ℝ := shares.foldl (· + ·) 0

/-- what `Nestor::update` shares -/
structure Vac where
  bSqVac : ℝ
  br : ℝ
  bphi : ℝ
  bz : ℝ

/-- magnetic pressure and cylindrical components, `nestor.cc:216-248` -/
noncomputable def vacuum (a : SArr) (sg : Surf) (b : ℝ × ℝ) (kl : Int) : Vac :=
  let o := kl - c.ztMin
  let guu := sg.guu o
  let guv := sg.guv o * c.s.nfp * 0.5
  let gvv := sg.gvv o * c.s.nfp * c.s.nfp
  let det := guu * gvv - guv * guv
  let bSupU := (gvv * b.1 - guv * b.2) / det
  let bSupV := (-guv * b.1 + guu * b.2) / det
  let d (f : Base × Der) : ℝ := a f (kl - c.derivOffset)
  { bSqVac := (b.1 * bSupU + b.2 * bSupV) * 0.5
    br := d (.r, .u) * bSupU + d (.r, .v) * bSupV
    bphi := sg.r1b kl * bSupV
    bz := d (.z, .u) * bSupU + d (.z, .v) * bSupV }

end SCtx
end Verif.Nestor
