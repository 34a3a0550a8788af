import Verif.VacBounds.Model

/-!
# The accesses of surface geometry, singular and regularised integrals and vacuum pressure

Same conventions as `VacBounds.Model`. A loop whose body moves its own counter gets as many passes
as it has points; if it were not finished then, the list contains an access without an index, which
is never in range: a loop that does not end is not safe.
File names: `sg` is `free_boundary/surface_geometry/surface_geometry.cc`, `si`
`free_boundary/singular_integrals/singular_integrals.cc`, `ri`
`free_boundary/regularized_integrals/regularized_integrals.cc`, `ef`
`free_boundary/external_magnetic_field/external_magnetic_field.cc`.
-/
namespace Verif.VacSrc
open Verif.VacBounds (Env absInt)

/-- The arrays: members of `SurfaceGeometry`, `SingularIntegrals`, `RegularizedIntegrals` and
    `Nestor`, local buffers, boundary coefficients, Fourier basis. -/
inductive Arr where
  -- SurfaceGeometry
  | cos_per | sin_per | cos_phi | sin_phi
  | r1b | z1b | rcosuv | rsinuv | rzb2
  | rub | rvb | zub | zvb | ruu | ruv | rvv | zuu | zuv | zvv
  | snr | snv | snz | guu | guv | gvv | auu | auv | avv | drv
  | r1b_asym | z1b_asym | rub_asym | rvb_asym | zub_asym | zvb_asym
  | ruu_asym | ruv_asym | rvv_asym | zuu_asym | zuv_asym | zvv_asym
  -- boundary coefficients
  | rCC | rSS | zSC | zCS | rSC | rCS | zCC | zSS
  -- Fourier basis, integration weights
  | mscale | nscale | cosmu | sinmu | cosmum | sinmum | cosnv | sinnv | cosnvn | sinnvn | wInt
  -- SingularIntegrals
  | cmn | cmns | ap | am | d | sqrtc2 | sqrta2 | delta4 | Ap | Am | D | R1p | R1m | R0p | R0m
  | Ra1p | Ra1m | Tl1p | Tl1m | Tlp | Tlm | Slp | Slm
  | bvec_sin | bvec_cos | grpmn_sin | grpmn_cos
  -- RegularizedIntegrals
  | gsave | dsave | tanu | tanv | tanv_per | greenp | gstore
  | ga1_buf | ga2_buf | htemp_buf | ftemp_buf
  -- ExternalMagneticField, Nestor, shared
  | rAxis | zAxis | axisXYZ | surfaceXYZ | bCoilsXYZ | interpBr | interpBp | interpBz
  | curtorBr | curtorBp | curtorBz
  | bDotN | efBSubU | efBSubV | potU | potV | bSubU | bSubV
  | bSqVacShare | vacuum_b_r | vacuum_b_phi | vacuum_b_z

open Arr

/-- `derivSize`, `sg:40` -/
def derivSize (E : Env) : Int := if E.s.lasym then E.s.nZnT else E.numLocal
/-- `derivOffset`, `sg:164`, `:402` and `free_boundary/nestor/nestor.cc:240` -/
def derivOffset (E : Env) : Int := if E.s.lasym then 0 else E.ztMin
/-- `nvper_`, `ri:62` and `ef:24`; `kAxisymmetricToroidalImages` and
    `kAxisymmetricToroidalReplication` are 64 -/
def nvper (E : Env) : Int := if E.s.nZeta = 1 then 64 else E.s.nfp

/-- The extents: `sg:13-75`, `si:24-75`, `ri:19-29`, `:65`, `:104-107` (buffers),
    `common/fourier_basis/fourier_basis.cc:18-33`, `common/sizes/sizes.cc:131`,
    `vmec/handover_storage/handover_storage.cc:46-54`, `free_boundary/nestor/nestor.cc:27-31`,
    `vmec/vmec/vmec.cc:208-211`, `ef:28-46`, `vmec/handover_storage/handover_storage.cc:43-44`
    (`rAxis`, `zAxis`). -/
def dims (E : Env) : Arr → List Int
  | cos_per | sin_per => [E.s.nfp]
  | cos_phi | sin_phi => [E.s.nZeta]
  | r1b | z1b | rcosuv | rsinuv | rzb2 => [E.s.nThetaEven * E.s.nZeta]
  | rub | rvb | zub | zvb | ruu | ruv | rvv | zuu | zuv | zvv => [derivSize E]
  | snr | snv | snz | guu | guv | gvv | auu | auv | avv | drv => [E.numLocal]
  | r1b_asym | z1b_asym | rub_asym | rvb_asym | zub_asym | zvb_asym
  | ruu_asym | ruv_asym | rvv_asym | zuu_asym | zuv_asym | zvv_asym =>
    [if E.s.lasym then E.s.nZnT else 0]
  | rCC | rSS | zSC | zCS => [E.s.mnsize]
  | rSC | rCS | zCC | zSS => [if E.s.lasym then E.s.mnsize else 0]
  | mscale => [E.s.mnyq2 + 1]
  | nscale => [E.s.nnyq2 + 1]
  | cosmu | sinmu | cosmum | sinmum => [E.s.nThetaReduced * (E.s.mnyq2 + 1)]
  | cosnv | sinnv | cosnvn | sinnvn => [(E.s.nnyq2 + 1) * E.s.nZeta]
  | wInt => [E.s.nThetaEff]
  | cmn | cmns => [(1 + E.nf + E.mf) * (E.nf + 1) * (E.mf + 1)]
  | ap | am | d | sqrtc2 | sqrta2 | delta4 | Ap | Am | D | R1p | R1m | R0p | R0m | Ra1p | Ra1m
  | Tl1p | Tl1m => [E.numLocal]
  | Tlp | Tlm => [E.mf + E.nf + 2, E.numLocal]
  | Slp | Slm => [E.mf + E.nf + 1, E.numLocal]
  | bvec_sin => [E.mnpd]
  | bvec_cos => [if E.s.lasym then E.mnpd else 0]
  | grpmn_sin => [E.mnpd * E.numLocal]
  | grpmn_cos => [if E.s.lasym then E.mnpd * E.numLocal else 0]
  | gsave | dsave | gstore => [E.s.nThetaEven * E.s.nZeta]
  | tanu => [E.s.nThetaEven]
  | tanv => [E.s.nZeta]
  | tanv_per => [if E.s.nZeta = 1 then nvper E else 0]
  | greenp => [E.numLocal * E.s.nThetaEven * E.s.nZeta]
  | ga1_buf | ga2_buf | htemp_buf | ftemp_buf => [E.s.nZeta]
  | rAxis | zAxis => [E.s.nZeta]
  | axisXYZ => [3 * (E.s.nZeta * nvper E + 1)]
  | surfaceXYZ | bCoilsXYZ => [3 * E.numLocal]
  | interpBr | interpBp | interpBz | curtorBr | curtorBp | curtorBz => [E.numLocal]
  | bDotN | efBSubU | efBSubV | potU | potV | bSubU | bSubV => [E.numLocal]
  | bSqVacShare | vacuum_b_r | vacuum_b_phi | vacuum_b_z => [E.s.nZnT]

/-- one access `arr[i]` or `arr[i][j]` -/
structure Acc where
  arr : Arr
  idx : List Int

/-- `arr[i]` for every array of the list -/
def on (l : List Arr) (i : Int) : List Acc := l.map fun a => ⟨a, [i]⟩
/-- `arr[i][j]` for every array of the list -/
def on2 (l : List Arr) (i j : Int) : List Acc := l.map fun a => ⟨a, [i, j]⟩
/-- `for (int j = lo; j < hi; ++j) body` -/
def loop (lo hi : Int) (body : Int → List Acc) : List Acc := (irange lo hi).flatMap body
/-- `if (b) body` -/
def whenB (b : Bool) (body : List Acc) : List Acc := if b then body else []

/-- `for (kl = kl; kl < hi;) { row(kl); kl += step(kl); }` with at most `fuel` passes; a step that is
    not positive does not move `kl`. -/
def rows (step : Int → Int) (row : Int → List Acc) (hi : Int) : Nat → Int → List Acc
  | 0, kl => if kl < hi then [⟨tanu, []⟩] else []
  | f + 1, kl => if kl < hi then row kl ++ rows step row hi f (kl + max 0 (step kl)) else []

variable (E : Env) (full : Bool)

/-- `SurfaceGeometry::computeConstants`, `sg:82-96` -/
def sgConstants : List Acc :=
  (loop 0 E.s.nfp fun p => on [cos_per, sin_per] p) ++
  loop 0 E.s.nZeta fun k => on [cos_phi, sin_phi] k

/-- first derivatives -/
def d1 : List Arr := [rub, rvb, zub, zvb]
/-- second derivatives -/
def d2 : List Arr := [ruu, ruv, rvv, zuu, zuv, zvv]
/-- antisymmetric parts of the first derivatives -/
def d1a : List Arr := [rub_asym, rvb_asym, zub_asym, zvb_asym]
/-- antisymmetric parts of the second derivatives -/
def d2a : List Arr := [ruu_asym, ruv_asym, rvv_asym, zuu_asym, zuv_asym, zvv_asym]

/-- the transform in `SurfaceGeometry::inverseDFT`, `sg:196-340` -/
def inverseDFT : List Acc :=
  loop 0 (E.s.ntor + 1) fun n => loop 0 E.s.nThetaReduced fun l =>
    let lMin := E.ztMin.tdiv E.s.nZeta
    let lMax := E.ztMax.tdiv E.s.nZeta
    (loop 0 E.s.mpol fun m =>
      let idx_mn := n * E.s.mpol + m
      on [cosmu, sinmu] (l * (E.s.mnyq2 + 1) + m) ++ on [rCC, rSS, zSC, zCS] idx_mn ++
      whenB E.s.lasym (on [rSC, rCS, zCC, zSS] idx_mn) ++
      whenB (E.s.lasym || (decide (lMin ≤ l) && decide (l ≤ lMax)))
        (on [cosmum, sinmum, cosmu, sinmu] (l * (E.s.mnyq2 + 1) + m) ++
         on [rCC, rSS, zSC, zCS] idx_mn ++ whenB E.s.lasym (on [rSC, rCS, zCC, zSS] idx_mn))) ++
    loop 0 E.s.nZeta fun k =>
      let idx_kl := l * E.s.nZeta + k
      on [cosnv, sinnv] (n * E.s.nZeta + k) ++ on [r1b, z1b] idx_kl ++
      whenB E.s.lasym (on [r1b_asym, z1b_asym] idx_kl) ++
      whenB (E.s.lasym || (decide (E.ztMin ≤ idx_kl) && decide (idx_kl < E.ztMax)))
        (on [cosnvn, sinnvn] (n * E.s.nZeta + k) ++ on d1 (idx_kl - derivOffset E) ++
         whenB E.s.lasym (on d1a (idx_kl - derivOffset E)) ++
         whenB full (on [cosnv, sinnv] (n * E.s.nZeta + k) ++ on d2 (idx_kl - derivOffset E) ++
           whenB E.s.lasym (on d2a (idx_kl - derivOffset E))))

/-- the mirror in `SurfaceGeometry::inverseDFT`, `sg:342-395`; the derivative arrays are indexed
    without an offset -/
def mirror : List Acc :=
  whenB E.s.lasym
    ((loop 1 (E.s.nThetaReduced - 1) fun l =>
      let lRev := (E.s.nThetaEven - l).tmod E.s.nThetaEven
      loop 0 E.s.nZeta fun k =>
        let kRev := (E.s.nZeta - k).tmod E.s.nZeta
        let kl := l * E.s.nZeta + k
        let klRev := lRev * E.s.nZeta + kRev
        on [r1b, z1b] klRev ++ on [r1b, z1b] kl ++ on [r1b_asym, z1b_asym] kl ++
        on d1 klRev ++ on d1 kl ++ on d1a kl ++
        whenB full (on d2 klRev ++ on d2 kl ++ on d2a kl)) ++
     loop 0 E.s.nThetaReduced fun l => loop 0 E.s.nZeta fun k =>
        let kl := l * E.s.nZeta + k
        on [r1b, z1b] kl ++ on [r1b_asym, z1b_asym] kl ++ on d1 kl ++ on d1a kl ++
        whenB full (on d2 kl ++ on d2a kl))

/-- `SurfaceGeometry::derivedSurfaceQuantities`, `sg:398-460` -/
def derivedSurfaceQuantities : List Acc :=
  (loop E.ztMin E.ztMax fun kl =>
    let o := kl - E.ztMin
    let dd := kl - derivOffset E
    on [snr, snv, snz, guu, guv, gvv] o ++ on [r1b] kl ++ on d1 dd ++
    whenB full (on [auu, auv, avv, drv, snr, snv, snz] o ++ on d2 dd ++ on d1 dd ++
      on [r1b, z1b] kl)) ++
  whenB full
    ((loop 0 E.s.nZnT fun kl => on [rzb2, r1b, z1b] kl) ++
     whenB (!E.s.lasym)
       (loop 1 (E.s.nThetaReduced - 1) fun l =>
         let lRev := (E.s.nThetaEven - l).tmod E.s.nThetaEven
         loop 0 E.s.nZeta fun k =>
           let kRev := (E.s.nZeta - k).tmod E.s.nZeta
           on [r1b, z1b, rzb2] (l * E.s.nZeta + k) ++ on [r1b, z1b, rzb2] (lRev * E.s.nZeta + kRev)) ++
     loop 0 (E.s.nThetaEven * E.s.nZeta) fun kl =>
       on [rcosuv, rsinuv, r1b] kl ++ on [cos_phi, sin_phi] (kl.tmod E.s.nZeta))

/-- `SingularIntegrals::computeCoefficients`, `si:82-151` -/
def computeCoefficients : List Acc :=
  (loop 0 (E.nf + 1) fun n => loop 0 (E.mf + 1) fun m =>
    let k_mn := absInt (m - n)
    let j_mn := m + n
    loop 0 ((j_mn - k_mn).tdiv 2 + 1) fun q =>
      on [cmn] (((k_mn + 2 * q) * (E.nf + 1) + n) * (E.mf + 1) + m)) ++
  (loop 0 (E.nf + 1) fun n => loop 0 (E.mf + 1) fun m =>
    loop 0 (1 + E.mf + E.nf) fun l =>
      let at_ := fun n m : Int => l * (E.mf + 1) * (E.nf + 1) + (n * (E.mf + 1) + m)
      on [cmns, cmn] (at_ n m) ++
      whenB (decide (n > 0)) (on [cmn] (at_ (n - 1) m)) ++
      whenB (decide (m > 0)) (on [cmn] (at_ n (m - 1))) ++
      whenB (decide (m > 0 ∧ n > 0)) (on [cmn] (at_ (n - 1) (m - 1))))

/-- one of the two recurrences of `SingularIntegrals::prepareUpdate`, `si:273-309` and `:312-348`:
    both the backward and the forward branch, the choice between which depends on values -/
def recurrence (T : Arr) (kl : Int) : List Acc :=
  let kL := E.mf + E.nf
  on2 [T] 0 kl ++ on [sqrtc2, sqrta2, d, ap, am] kl ++
  (loop 1 (kL + 50 + 1) fun l => whenB (decide (l - 1 ≤ kL)) (on2 [T] (l - 1) kl)) ++
  (loop 0 (kL + 1) fun l => on2 [T] l kl) ++
  loop 0 kL fun fl => on2 [T] fl kl ++ on2 [T] (fl + 1) kl

/-- `SingularIntegrals::prepareUpdate`, `si:174-350` -/
def prepareUpdate : List Acc :=
  loop 0 E.numLocal fun kl =>
    on [guu, guv, gvv, ap, am, d, sqrtc2, sqrta2] kl ++
    whenB full (on [delta4, auu, auv, avv, Ap, Am, D, R1p, R1m, R0p, R0m, Ra1p, Ra1m] kl) ++
    recurrence E Tlp kl ++ recurrence E Tlm kl

/-- `lr`, `si:410`, `:440`, `:552` -/
def lr (l : Int) : Int := if l < E.s.nThetaReduced then l else E.s.nThetaEven - l

/-- one point of `analysum`, `si:398-433`, or of the `lasym` part of `analysum2`, `si:546-583`;
    `idxs` are the Fourier indices written -/
def analysumPoint (fl n m : Int) (idxs : List Int) (sin_ cos_ : Bool) (kl : Int) : List Acc :=
  let l := kl.tdiv E.s.nZeta
  let k := kl.tmod E.s.nZeta
  let klRel := kl - E.ztMin
  on [sinmu, cosmu] (lr E l * (E.s.mnyq2 + 1) + m) ++ on [cosnv, sinnv] (n * E.s.nZeta + k) ++
  on2 [Tlp, Tlm] fl klRel ++ on [bDotN] klRel ++ on [wInt] l ++
  whenB full (on2 [Slp, Slm] fl klRel) ++
  whenB sin_ (idxs.flatMap fun i => on [bvec_sin] i ++
    whenB full (on [grpmn_sin] (i * E.numLocal + klRel))) ++
  whenB cos_ (idxs.flatMap fun i => on [bvec_cos] i ++
    whenB full (on [grpmn_cos] (i * E.numLocal + klRel)))

/-- `remaining`, `si:443` -/
def remaining (kl : Int) : Int := min (E.s.nZeta - kl.tmod E.s.nZeta) (E.ztMax - kl)

/-- point `i` of a row of `analysum2`, `si:453-506` and `:517-543` -/
def rowPoint (fl n posn negn kl i : Int) : List Acc :=
  let l := kl.tdiv E.s.nZeta
  let klRel := kl + i - E.ztMin
  on [bDotN] klRel ++ on [wInt] l ++ on [cosnv, sinnv] (n * E.s.nZeta + (kl.tmod E.s.nZeta + i)) ++
  on2 [Tlp, Tlm] fl klRel ++
  whenB full (on [grpmn_sin] (posn * E.numLocal + klRel) ++
    on [grpmn_sin] (negn * E.numLocal + klRel) ++ on2 [Slp, Slm] fl klRel)

/-- a row of `analysum2`, `si:435-546`: groups of four points, then the rest -/
def rowAcc (fl n m posn negn kl : Int) : List Acc :=
  let r := remaining E kl
  on [sinmu, cosmu] (lr E (kl.tdiv E.s.nZeta) * (E.s.mnyq2 + 1) + m) ++
  on [bvec_sin] posn ++ on [bvec_sin] negn ++
  (loop 0 (r.tdiv 4) fun q => loop 0 4 fun j => rowPoint E full fl n posn negn kl (4 * q + j)) ++
  loop (4 * r.tdiv 4) r fun i => rowPoint E full fl n posn negn kl i

/-- `SingularIntegrals::performUpdate`, `si:352-599` -/
def performUpdate : List Acc :=
  loop 0 (1 + E.nf + E.mf) fun fl =>
    whenB full (loop E.ztMin E.ztMax fun kl =>
      on2 [Slp, Slm, Tlp, Tlm] fl (kl - E.ztMin) ++
      on [R1p, R1m, Ra1p, Ra1m, R0p, R0m, Tl1p, Tl1m, sqrtc2, sqrta2] (kl - E.ztMin)) ++
    (loop 0 (E.nf + 1) fun n => loop 0 (E.mf + 1) fun m =>
      let posn := (E.nf + n) * (E.mf + 1) + m
      let negn := (E.nf - n) * (E.mf + 1) + m
      on [cmns] ((fl * (E.nf + 1) + n) * (E.mf + 1) + m) ++ on [mscale] m ++ on [nscale] n ++
      (if n = 0 ∨ m = 0 then
        loop E.ztMin E.ztMax fun kl => analysumPoint E full fl n m [posn] true E.s.lasym kl
      else
        rows (remaining E) (rowAcc E full fl n m posn negn) E.ztMax (E.ztMax - E.ztMin).toNat
          E.ztMin ++
        whenB E.s.lasym (loop E.ztMin E.ztMax fun kl =>
          analysumPoint E full fl n m [posn, negn] false true kl))) ++
    loop 0 E.numLocal fun kl => on [Tl1p, Tl1m] kl ++ on2 [Tlp, Tlm] fl kl

/-- `RegularizedIntegrals::computeConstants`, `ri:36-76` -/
def riConstants : List Acc :=
  (loop 0 E.s.nThetaEven fun l => on [tanu] l) ++ (loop 0 E.s.nZeta fun k => on [tanv] k) ++
  whenB (decide (E.s.nZeta = 1)) (loop 0 (nvper E) fun p => on [tanv_per] p)

/-- `k_end`, `ri:149` -/
def kEnd (kl kl_end : Int) : Int := min E.s.nZeta (kl_end - kl.tdiv E.s.nZeta * E.s.nZeta)

/-- one pass of the loop in `do_loop`, `ri:135-189`: the rest of a row of points with the same `l` -/
def nearRow (klp kl_end kl : Int) : List Acc :=
  let l := kl.tdiv E.s.nZeta
  let lp := klp.tdiv E.s.nZeta
  let kp := klp.tmod E.s.nZeta
  let delta_l := (l - lp + E.s.nThetaEven).tmod E.s.nThetaEven
  let k_start := kl.tmod E.s.nZeta
  let base := (klp - E.ztMin) * (E.s.nThetaEven * E.s.nZeta)
  loop k_start (kEnd E kl kl_end) fun k =>
    let delta_k := (k - kp + E.s.nZeta).tmod E.s.nZeta
    let p := kl + (k - k_start)
    on [ga1_buf, ga2_buf, ftemp_buf, htemp_buf] k ++
    on [guu, guv, gvv, auu, auv, avv] (klp - E.ztMin) ++ on [tanu] delta_l ++ on [tanv] delta_k ++
    on [gsave, rcosuv, rsinuv, dsave, gstore] p ++ on [greenp] (base + p)

/-- `do_loop`, `ri:135-189` -/
def doLoop (klp kl_start kl_end : Int) : List Acc :=
  rows (fun kl => kEnd E kl kl_end - kl.tmod E.s.nZeta) (nearRow E klp kl_end) kl_end
    (kl_end - kl_start).toNat kl_start

/-- `RegularizedIntegrals::update` for `nZeta ≠ 1`, `ri:88-228` -/
def riUpdate3d : List Acc :=
  let N := E.s.nThetaEven * E.s.nZeta
  loop E.ztMin E.ztMax fun klp =>
    on [bDotN, snr, snv, drv, snz] (klp - E.ztMin) ++ on [wInt] (klp.tdiv E.s.nZeta) ++
    on [rcosuv, rsinuv, r1b, rzb2, z1b] klp ++ on [cos_per, sin_per] 0 ++
    (loop 0 N fun kl => on [gsave, rzb2, z1b, dsave] kl) ++
    doLoop E klp 0 klp ++ doLoop E klp (klp + 1) N ++
    loop 1 E.s.nfp fun p =>
      on [cos_per, sin_per] p ++ on [snr, snv] (klp - E.ztMin) ++ on [r1b] klp ++
      loop 0 N fun kl => on [gsave, rcosuv, rsinuv, dsave, gstore] kl ++
        on [greenp] ((klp - E.ztMin) * N + kl)

/-- `RegularizedIntegrals::updateAxisymmetric`, `ri:230-309` -/
def riUpdate2d : List Acc :=
  (loop 0 (E.numLocal * E.s.nThetaEven) fun i => on [greenp] i) ++
  (loop 0 E.s.nThetaEven fun i => on [gstore] i) ++
  loop E.ztMin E.ztMax fun klp =>
    on [bDotN] (klp - E.ztMin) ++ on [wInt] klp ++ on [rcosuv, rsinuv] klp ++
    (loop 0 E.s.nThetaEven fun kl =>
      on [gsave, dsave, rzb2, z1b] kl ++ on [rzb2, z1b] klp ++ on [drv, snz] (klp - E.ztMin)) ++
    loop 0 (nvper E) fun p =>
      on [snr, snv] (klp - E.ztMin) ++ on [r1b] klp ++ on [tanv_per] p ++
      loop 0 E.s.nThetaEven fun kl =>
        whenB (!(decide (p = 0) && decide (kl = klp)))
          (on [guu, guv, gvv, auu, auv, avv] (klp - E.ztMin) ++
           on [tanu] ((kl - klp + E.s.nThetaEven).tmod E.s.nThetaEven) ++
           on [gsave, rcosuv, rsinuv, dsave, gstore] kl ++
           on [greenp] ((klp - E.ztMin) * E.s.nThetaEven + kl))

/-- `arr[3 * i + 0]`, `arr[3 * i + 1]`, `arr[3 * i + 2]` -/
def xyz (l : List Arr) (i : Int) : List Acc :=
  on l (i * 3 + 0) ++ on l (i * 3 + 1) ++ on l (i * 3 + 2)

/-- polygon along the axis and points on the surface, `ef:167-210` (`:84-124` are the same
    statements) -/
def axisAndSurface : List Acc :=
  (loop 0 E.s.nZeta fun k => xyz [axisXYZ] k ++ on [rAxis, zAxis, cos_phi, sin_phi] k) ++
  (loop 1 (nvper E) fun p => loop 0 E.s.nZeta fun k =>
    xyz [axisXYZ] (p * E.s.nZeta + k) ++ xyz [axisXYZ] k ++ on [zAxis] k) ++
  xyz [axisXYZ] (E.s.nZeta * nvper E) ++ xyz [axisXYZ] 0 ++
  loop E.ztMin E.ztMax fun kl =>
    xyz [surfaceXYZ] (kl - E.ztMin) ++ on [r1b, z1b] kl ++ on [cos_phi, sin_phi] (kl.tmod E.s.nZeta)

/-- `ExternalMagneticField::update` with `kUseAbscabForAxisCurrent = false`, `ef:50-79`, `:163-296`,
    `:298-330`. The interpolation `mgrid_provider.cc:325-404` only as the elements of the boundary
    that it reads and of the field that it writes; its accesses of the grid are property C35. -/
def externalField : List Acc :=
  (loop E.ztMin E.ztMax fun kl =>
    on [interpBr, interpBp, interpBz] (kl - E.ztMin) ++ on [r1b, z1b] kl) ++
  axisAndSurface E ++
  (loop 0 (E.s.nZeta * nvper E) fun src =>
    xyz [axisXYZ] (src + 1) ++ xyz [axisXYZ] src ++
    loop E.ztMin E.ztMax fun kl => xyz [surfaceXYZ, bCoilsXYZ] (kl - E.ztMin)) ++
  (loop E.ztMin E.ztMax fun kl =>
    xyz [bCoilsXYZ] (kl - E.ztMin) ++ on [cos_phi, sin_phi] (kl.tmod E.s.nZeta) ++
    on [curtorBr, curtorBp, curtorBz] (kl - E.ztMin)) ++
  loop E.ztMin E.ztMax fun kl =>
    on [interpBr, interpBp, interpBz, curtorBr, curtorBp, curtorBz, efBSubU, efBSubV, bDotN, snr, snv,
      snz] (kl - E.ztMin) ++
    on [rub, zub, rvb, zvb] (kl - derivOffset E) ++ on [r1b] kl

/-- covariant field and magnetic pressure on the surface in `Nestor::update`,
    `free_boundary/nestor/nestor.cc:181-248` -/
def vacuumPressure : List Acc :=
  (loop E.ztMin E.ztMax fun kl =>
    on [bSubU, bSubV, potU, potV, efBSubU, efBSubV] (kl - E.ztMin) ++
    on [wInt] (kl.tdiv E.s.nZeta)) ++
  loop E.ztMin E.ztMax fun kl =>
    on [guu, guv, gvv, bSubU, bSubV] (kl - E.ztMin) ++
    on [bSqVacShare, vacuum_b_r, vacuum_b_phi, vacuum_b_z, r1b] kl ++
    on [rub, rvb, zub, zvb] (kl - derivOffset E)

/-- everything a thread runs: the constructors, then one `Nestor::update`
    (`free_boundary/nestor/nestor.cc:50-248`) without the Laplace solver, which is property C121;
    `full` is `fullUpdate` -/
def update : List Acc :=
  sgConstants E ++ computeCoefficients E ++ riConstants E ++
  inverseDFT E full ++ mirror E full ++ derivedSurfaceQuantities E full ++
  externalField E ++ prepareUpdate E full ++ performUpdate E full ++
  whenB full (if E.s.nZeta = 1 then riUpdate2d E else riUpdate3d E) ++ vacuumPressure E

end Verif.VacSrc
