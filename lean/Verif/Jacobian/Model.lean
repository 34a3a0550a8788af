import Verif.Common.Ext
import Verif.Common.Loop
import Verif.Partition.Model
import Mathlib.Algebra.Order.Ring.Abs

/-!
# Model of the Jacobian sign check

`IdealMhdModel::computeJacobian`, `cpp/vmecpp/vmec/ideal_mhd_model/ideal_mhd_model.cc:1639-1678`.
The values `tau` of the kernel are given; they may be any double including NaN and infinities.
-/
namespace Verif.Jacobian
open Verif Verif.Partition

/-- `2^-1075`: a product of this magnitude or less rounds to zero in double precision -/
def tiny : ℚ := 1 / 2 ^ 1075
/-- `2^1024 - 2^970`: a product of this magnitude or more rounds to infinity in double precision -/
def big : ℚ := 2 ^ 1024 - 2 ^ 970

/-- product of two doubles, with underflow and overflow; products in between are taken exactly
    (their rounding never changes the sign or finiteness, which is all the check looks at) -/
def mulR : D → D → D
  | .fin a, .fin b =>
    if |a * b| ≤ tiny then .fin 0
    else if big ≤ |a * b| then (if 0 < a * b then .pinf else .ninf)
    else .fin (a * b)
  | x, y => D.mul x y

/-- `t == 0.0` -/
def isZero (t : D) : Bool := decide (t = .fin 0)

/-- update of `minTau`, 1656-1658 -/
def stepMin (minTau t : D) : D := if D.lt t minTau || isZero minTau then t else minTau

/-- update of `maxTau`, 1659-1661 -/
def stepMax (maxTau t : D) : D := if D.lt maxTau t || isZero maxTau then t else maxTau

/-- the loop 1651-1662 over the first `nTau` entries of `tau` -/
def scan (nTau : Int) (tau : Int → D) : D × D :=
  forRange 0 nTau (fun i s => (stepMin s.1 (tau i), stepMax s.2 (tau i))) (.fin 0, .fin 0)

/-- `localBadJacobian`, 1664-1665 -/
def localBad (nTau : Int) (tau : Int → D) : Bool :=
  let m := scan nTau tau
  D.lt (mulR m.1 m.2) (.fin 0) || !(mulR m.1 m.2).isFinite

/-- the slice of the global Jacobian field `g jH kl` a thread holds: entry
    `(jH - nsMinH) * nZnT + kl`, `jacobian_kernel.h:34-41` -/
def localTau (g : Int → Int → D) (nZnT : Int) (r : Ranges) (i : Int) : D :=
  g (r.nsMinH + i.tdiv nZnT) (i.tmod nZnT)

/-- verdict of one thread, 1650 -/
def threadBad (g : Int → Int → D) (nZnT : Int) (r : Ranges) : Bool :=
  localBad ((r.nsMaxH - r.nsMinH) * nZnT) (localTau g nZnT r)

/-- verdict of the team: any thread may set the restart reason, 1667-1674 -/
def teamBad (g : Int → Int → D) (nZnT nt : Int) (R : Int → Ranges) : Bool :=
  forRange 0 nt (fun t b => b || threadBad g nZnT (R t)) false

end Verif.Jacobian
