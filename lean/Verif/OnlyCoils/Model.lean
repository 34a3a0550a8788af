import Verif.Nestor.PropsF
import Verif.Common.Outcome
import Verif.Common.Ext

/-! # Model of the free-boundary method `only_coils`

`free_boundary/only_coils/only_coils.cc` and the check of its input in `vmec/vmec/vmec.cc`.  Exact reals, extended doubles in the check.  The surface
geometry is `Nestor.SCtx.update` and the external field is `Nestor.SCtx.covariant`; the interpolated field `interp` of a thread is a parameter
(indexed from the first point of the thread). -/
namespace Verif.OnlyCoils
open Verif Fourier Nestor

/-- the context of a thread with `full_update = false`, `only_coils.cc:28-32` -/
def geometry (c : SCtx) : SCtx := { c with fullUpdate := false }

/-- `ef_.update(rAxis, zAxis, 0.0)`, `only_coils.cc:34-36`; `netToroidalCurrent` is not used -/
noncomputable def external (c : SCtx) (old : SArr) (oldS : Surf) (rAxis zAxis : Int → ℝ) (interp : Int → V3) (_netToroidalCurrent : ℝ) : Ext :=
  (geometry c).covariant ((geometry c).inverseDFT old) ((geometry c).update old oldS) interp (axisXYZ c.s rAxis zAxis) 0

/-- the thread's share of the averages, `only_coils.cc:38-46` -/
noncomputable def localSub (c : SCtx) (ef : Ext) : ℝ × ℝ :=
  let p := forRange c.ztMin c.ztMax (fun kl (p : ℝ × ℝ) =>
    let l := kl.tdiv c.s.nZeta
    (p.1 + ef.bSubU (kl - c.ztMin) * Sizes.wInt c.s l, p.2 + ef.bSubV (kl - c.ztMin) * Sizes.wInt c.s l)) (0, 0)
  (p.1 * (c.signOfJacobian * 2 * Real.pi), p.2)

/-- reset and sum in the order in which the threads enter the critical section, `only_coils.cc:48-69` -/
noncomputable def netSub (shares : List (ℝ × ℝ)) : ℝ × ℝ := shares.foldl (· + ·) 0

/-- arrays shared between the threads -/
structure Shared where
  bSq : Int → ℝ
  br : Int → ℝ
  bphi : Int → ℝ
  bz : Int → ℝ

/-- magnetic pressure, `only_coils.cc:71-82` -/
noncomputable def point (c : SCtx) (interp : Int → V3) (kl : Int) (sh : Shared) : Shared :=
  let br := upd sh.br kl (interp (kl - c.ztMin)).x
  let bphi := upd sh.bphi kl (interp (kl - c.ztMin)).y
  let bz := upd sh.bz kl (interp (kl - c.ztMin)).z
  ⟨upd sh.bSq kl (0.5 * (br kl * br kl + bphi kl * bphi kl + bz kl * bz kl)), br, bphi, bz⟩
noncomputable def points (c : SCtx) (interp : Int → V3) (sh : Shared) : Shared := forRange c.ztMin c.ztMax (point c interp) sh

/-- all threads; each writes its own points, `L` is the order in which they do -/
noncomputable def team (w : Net) (co : Coef → Int → ℝ) (sgn : Int) (interp : Int → Int → V3) (L : List Int) (sh : Shared) : Shared :=
  L.foldl (fun sh t => points (w.surf co false sgn t) (interp t) sh) sh

/-- the inputs which the check reads -/
structure Input where
  lfreeb : Bool
  onlyCoils : Bool
  curtor : D
  pres_scale : D
  ncurr : Int

/-- `a != 0.0` -/
def nonzero (a : D) : Bool := !(decide (a = .fin 0))

/-- constructor of `Vmec`, `vmec.cc:213-220`, inside `if (fc_.lfreeb)` -/
def construct (i : Input) : Outcome Unit :=
  if i.lfreeb then
    if i.onlyCoils && (nonzero i.curtor || nonzero i.pres_scale) then .throws "curtor and pres_scale must be zero" else .ok ()
  else .ok ()

end Verif.OnlyCoils
