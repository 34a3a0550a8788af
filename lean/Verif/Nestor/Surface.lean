import Verif.Nestor.Green
import Verif.Fourier.Basis
import Verif.Common.Fam

/-! # Model of `SurfaceGeometry` (`free_boundary/surface_geometry/surface_geometry.cc`)

Exact reals.  The arrays `r1b`, `rub`, ..., `zvv` and their `_asym` companions are one family, keyed by the coordinate and the derivative;
statements which the code repeats for the arrays of the family are one statement with a table.  Array bounds are not modelled. -/
namespace Verif.Nestor
open Verif Fourier

/-- Fourier coefficients, in the order of the arguments of `update` -/
inductive Coef | rCC | rSS | rSC | rCS | zSC | zCS | zCC | zSS
  deriving DecidableEq
/-- suffix of the accumulators over `m`: none, `_m`, `_mm` -/
inductive Ord | none | m | mm
  deriving DecidableEq
/-- `r...`, `z...`, `r..._asym`, `z..._asym` -/
inductive Base | r | z | rA | zA
  deriving DecidableEq
/-- `1b`, `ub`, `vb`, `uu`, `uv`, `vv` -/
inductive Der | b | u | v | uu | uv | vv
  deriving DecidableEq

abbrev SArr := Base × Der → Int → ℝ

def Coef.asym : Coef → Bool
  | .rSC => true | .rCS => true | .zCC => true | .zSS => true
  | _ => false
def Base.asym : Base → Bool
  | .rA => true | .zA => true | _ => false
def Der.second : Der → Bool
  | .uu => true | .uv => true | .vv => true | _ => false

structure SCtx where
  s : Sizes.Sizes
  ztMin : Int
  ztMax : Int
  co : Coef → Int → ℝ
  fullUpdate : Bool
  signOfJacobian : Int

namespace SCtx
variable (c : SCtx)

noncomputable def fp (m l : Int) : PolEntry := pol fastToroidal c.s m l
noncomputable def ft (n k : Int) : TorEntry := tor fastToroidal c.s c.s.nfp n k

/-- factors of the accumulators, `surface_geometry.cc:228-279` -/
noncomputable def mTab (l m : Int) : Coef → Ord → ℝ
  | .rCC, .none => (c.fp m l).cosmu
  | .rSS, .none => (c.fp m l).sinmu
  | .zSC, .none => (c.fp m l).sinmu
  | .zCS, .none => (c.fp m l).cosmu
  | .rSC, .none => (c.fp m l).sinmu
  | .rCS, .none => (c.fp m l).cosmu
  | .zCC, .none => (c.fp m l).cosmu
  | .zSS, .none => (c.fp m l).sinmu
  | .rCC, .m => (c.fp m l).sinmum
  | .rCC, .mm => -(m * m : Int) * (c.fp m l).cosmu
  | .rSS, .m => (c.fp m l).cosmum
  | .rSS, .mm => -(m * m : Int) * (c.fp m l).sinmu
  | .zSC, .m => (c.fp m l).cosmum
  | .zSC, .mm => -(m * m : Int) * (c.fp m l).sinmu
  | .zCS, .m => (c.fp m l).sinmum
  | .zCS, .mm => -(m * m : Int) * (c.fp m l).cosmu
  | .rSC, .m => (c.fp m l).cosmum
  | .rSC, .mm => -(m * m : Int) * (c.fp m l).sinmu
  | .rCS, .m => (c.fp m l).sinmum
  | .rCS, .mm => -(m * m : Int) * (c.fp m l).cosmu
  | .zCC, .m => (c.fp m l).sinmum
  | .zCC, .mm => -(m * m : Int) * (c.fp m l).cosmu
  | .zSS, .m => (c.fp m l).cosmum
  | .zSS, .mm => -(m * m : Int) * (c.fp m l).sinmu

/-- which accumulators a pass adds to: those without suffix for every `l`, the others if `lasym` or `l` is in the rows of the thread,
`surface_geometry.cc:236`, 254 and 270 -/
def mGate (l : Int) (q : Coef) (o : Ord) : Bool :=
  (!q.asym || c.s.lasym) && (decide (o = .none) || c.s.lasym || (decide (c.ztMin.tdiv c.s.nZeta ≤ l) && decide (l ≤ c.ztMax.tdiv c.s.nZeta)))

/-- loop over `m`, `surface_geometry.cc:222-281` -/
noncomputable def mLoop (n l : Int) : Coef → Ord → ℝ :=
  forRange 0 c.s.mpol (fun m acc q o => if c.mGate l q o then acc q o + c.co q (n * c.s.mpol + m) * c.mTab l m q o else acc q o) fun _ _ => 0

/-- what the loop over `k` adds to the arrays, `surface_geometry.cc:286-343` -/
noncomputable def kTab (n k : Int) (a : Coef → Ord → ℝ) : Base × Der → ℝ :=
  let cosnv := (c.ft n k).cosnv
  let sinnv := (c.ft n k).sinnv
  let cosnvn := (c.ft n k).cosnvn
  let sinnvn := (c.ft n k).sinnvn
  let cosnvnn := -(n * c.s.nfp * n * c.s.nfp : Int) * (c.ft n k).cosnv
  let sinnvnn := -(n * c.s.nfp * n * c.s.nfp : Int) * (c.ft n k).sinnv
  fun
  | (.r, .b) => a .rCC .none * cosnv + a .rSS .none * sinnv
  | (.z, .b) => a .zSC .none * cosnv + a .zCS .none * sinnv
  | (.rA, .b) => a .rSC .none * cosnv + a .rCS .none * sinnv
  | (.zA, .b) => a .zCC .none * cosnv + a .zSS .none * sinnv
  | (.r, .u) => a .rCC .m * cosnv + a .rSS .m * sinnv
  | (.r, .v) => a .rCC .none * sinnvn + a .rSS .none * cosnvn
  | (.z, .u) => a .zSC .m * cosnv + a .zCS .m * sinnv
  | (.z, .v) => a .zSC .none * sinnvn + a .zCS .none * cosnvn
  | (.rA, .u) => a .rSC .m * cosnv + a .rCS .m * sinnv
  | (.rA, .v) => a .rSC .none * sinnvn + a .rCS .none * cosnvn
  | (.zA, .u) => a .zCC .m * cosnv + a .zSS .m * sinnv
  | (.zA, .v) => a .zCC .none * sinnvn + a .zSS .none * cosnvn
  | (.r, .uu) => a .rCC .mm * cosnv + a .rSS .mm * sinnv
  | (.r, .uv) => a .rCC .m * sinnvn + a .rSS .m * cosnvn
  | (.r, .vv) => a .rCC .none * cosnvnn + a .rSS .none * sinnvnn
  | (.z, .uu) => a .zSC .mm * cosnv + a .zCS .mm * sinnv
  | (.z, .uv) => a .zSC .m * sinnvn + a .zCS .m * cosnvn
  | (.z, .vv) => a .zSC .none * cosnvnn + a .zCS .none * sinnvnn
  | (.rA, .uu) => a .rSC .mm * cosnv + a .rCS .mm * sinnv
  | (.rA, .uv) => a .rSC .m * sinnvn + a .rCS .m * cosnvn
  | (.rA, .vv) => a .rSC .none * cosnvnn + a .rCS .none * sinnvnn
  | (.zA, .uu) => a .zCC .mm * cosnv + a .zSS .mm * sinnv
  | (.zA, .uv) => a .zCC .m * sinnvn + a .zSS .m * cosnvn
  | (.zA, .vv) => a .zCC .none * cosnvnn + a .zSS .none * sinnvnn

/-- `derivOffset`, `surface_geometry.cc:152` -/
def derivOffset : Int := if c.s.lasym then 0 else c.ztMin
/-- position of a point in an array -/
def pos : Base × Der → Int → Int
  | (_, .b), kl => kl
  | (_, _), kl => kl - c.derivOffset
/-- arrays written at a point, `surface_geometry.cc:292-329` -/
def kGate (f : Base × Der) (kl : Int) : Bool :=
  (!f.1.asym || c.s.lasym) && (decide (f.2 = .b) || c.s.lasym || (decide (c.ztMin ≤ kl) && decide (kl < c.ztMax))) && (!f.2.second || c.fullUpdate)

/-- body of the loop over `k`, `surface_geometry.cc:283-345` -/
noncomputable def kBody (n l k : Int) (a : SArr) : SArr := fun f i =>
  if c.kGate f (l * c.s.nZeta + k) ∧ i = c.pos f (l * c.s.nZeta + k) then a f i + c.kTab n k (c.mLoop n l) f else a f i

/-- `setZero`, `surface_geometry.cc:140-180` -/
noncomputable def zero (old : SArr) : SArr := fun f i => if (f.1.asym && !c.s.lasym) || (f.2.second && !c.fullUpdate) then old f i else 0

/-- loops over `n`, `l`, `k`, `surface_geometry.cc:182-347` -/
noncomputable def transform (old : SArr) : SArr :=
  forRange 0 (c.s.ntor + 1) (fun n a => forRange 0 c.s.nThetaReduced (fun l a => forRange 0 c.s.nZeta (fun k a =>
    c.kBody n l k a) a) a) (c.zero old)

/-- loops which write to the reflected points, `surface_geometry.cc:358-382` and 451-464; `w a kl f x` is what replaces `x` -/
def mirror {F : Type} (w : (F → Int → ℝ) → Int → F → ℝ → ℝ) (a : F → Int → ℝ) : F → Int → ℝ :=
  forRange 1 (c.s.nThetaReduced - 1) (fun l a =>
    let lRev := (c.s.nThetaEven - l).tmod c.s.nThetaEven
    forRange 0 c.s.nZeta (fun k a =>
      let kRev := (c.s.nZeta - k).tmod c.s.nZeta
      fun f i => if i = lRev * c.s.nZeta + kRev then w a (l * c.s.nZeta + k) f (a f i) else a f i) a) a

/-- whether the sum or the difference keeps its sign, comment at `surface_geometry.cc:350-357` and 365-380 -/
def even : Base → Der → Bool
  | .r, .b => true | .r, .u => false | .r, .v => false | .r, .uu => true | .r, .uv => true | .r, .vv => true
  | .z, .b => false | .z, .u => true | .z, .v => true | .z, .uu => false | .z, .uv => false | .z, .vv => false
  | _, _ => true
def companion : Base → Base
  | .r => .rA | .z => .zA | b => b

/-- values at the reflected points, `surface_geometry.cc:365-380` -/
noncomputable def reflected (a : SArr) (kl : Int) (f : Base × Der) (x : ℝ) : ℝ :=
  if f.1.asym ∨ (f.2.second ∧ ¬ c.fullUpdate) then x
  else if even f.1 f.2 then a f kl - a (companion f.1, f.2) kl else -a f kl + a (companion f.1, f.2) kl

/-- `surface_geometry.cc:385-406` -/
noncomputable def addAsym (a : SArr) : SArr :=
  forRange 0 c.s.nThetaReduced (fun l a => forRange 0 c.s.nZeta (fun k a => fun f i =>
    if f.1.asym ∨ (f.2.second ∧ ¬ c.fullUpdate) then a f i
    else if i = l * c.s.nZeta + k then a f i + a (companion f.1, f.2) i else a f i) a) a

/-- `inverseDFT`, `surface_geometry.cc:128-408` -/
noncomputable def inverseDFT (old : SArr) : SArr :=
  let a := c.transform old
  if c.s.lasym then c.addAsym (c.mirror c.reflected a) else a

/-- the arrays which `derivedSurfaceQuantities` mirrors -/
inductive RZ | r1b | z1b | rzb2
  deriving DecidableEq
noncomputable def reflectedRZ (a : RZ → Int → ℝ) (kl : Int) (f : RZ) (_ : ℝ) : ℝ :=
  match f with
  | .r1b => a .r1b kl
  | .z1b => -a .z1b kl
  | .rzb2 => a .rzb2 kl

/-- `r1b`, `z1b`, `rzb2` after `derivedSurfaceQuantities`, `surface_geometry.cc:443-465` -/
noncomputable def rz (a : SArr) (oldRzb2 : Int → ℝ) : RZ → Int → ℝ :=
  let b : RZ → Int → ℝ
    | .r1b => a (.r, .b)
    | .z1b => a (.z, .b)
    | .rzb2 => if c.fullUpdate then fun kl => if 0 ≤ kl ∧ kl < c.s.nZnT then a (.r, .b) kl * a (.r, .b) kl + a (.z, .b) kl * a (.z, .b) kl
        else oldRzb2 kl
      else oldRzb2
  if c.fullUpdate ∧ ¬ c.s.lasym then c.mirror reflectedRZ b else b

/-- `derivedSurfaceQuantities`, `surface_geometry.cc:410-474`; loops which write each element once from other arrays are written as functions of
the index.  `cos_per`, `sin_per`, `cos_phi`, `sin_phi`: `computeConstants`, lines 84-98. -/
noncomputable def derived (a : SArr) (old : Surf) : Surf :=
  let b := c.rz a old.rzb2
  let d (f : Base × Der) (o : Int) : ℝ := a f (o + c.ztMin - c.derivOffset)
  let r1b (o : Int) : ℝ := a (.r, .b) (o + c.ztMin)
  let z1b (o : Int) : ℝ := a (.z, .b) (o + c.ztMin)
  let σ : ℝ := c.signOfJacobian
  let snr (o : Int) := σ * r1b o * d (.z, .u) o
  let snv (o : Int) := σ * (d (.r, .u) o * d (.z, .v) o - d (.z, .u) o * d (.r, .v) o)
  let snz (o : Int) := -σ * r1b o * d (.r, .u) o
  { snr := snr
    snv := snv
    snz := snz
    guu := fun o => d (.r, .u) o * d (.r, .u) o + d (.z, .u) o * d (.z, .u) o
    guv := fun o => 2 * (d (.r, .u) o * d (.r, .v) o + d (.z, .u) o * d (.z, .v) o) / c.s.nfp
    gvv := fun o => (d (.r, .v) o * d (.r, .v) o + r1b o * r1b o + d (.z, .v) o * d (.z, .v) o) / (c.s.nfp * c.s.nfp : Int)
    auu := if c.fullUpdate then fun o => (d (.r, .uu) o * snr o + d (.z, .uu) o * snz o) / 2 else old.auu
    auv := if c.fullUpdate then fun o => (d (.r, .uv) o * snr o + d (.r, .u) o * snv o + d (.z, .uv) o * snz o) / c.s.nfp else old.auv
    avv := if c.fullUpdate then fun o => (d (.r, .v) o * snv o + ((d (.r, .vv) o - r1b o) * snr o + d (.z, .vv) o * snz o) / 2)
        / (c.s.nfp * c.s.nfp : Int) else old.avv
    drv := if c.fullUpdate then fun o => -(r1b o * snr o + z1b o * snz o) else old.drv
    r1b := b .r1b
    z1b := b .z1b
    rzb2 := b .rzb2
    rcosuv := if c.fullUpdate then fun kl => b .r1b kl * Real.cos (2 * Real.pi / (c.s.nfp * c.s.nZeta : Int) * (kl.tmod c.s.nZeta : Int)) else old.rcosuv
    rsinuv := if c.fullUpdate then fun kl => b .r1b kl * Real.sin (2 * Real.pi / (c.s.nfp * c.s.nZeta : Int) * (kl.tmod c.s.nZeta : Int)) else old.rsinuv
    cos_per := fun p => Real.cos (2 * Real.pi / c.s.nfp * p)
    sin_per := fun p => Real.sin (2 * Real.pi / c.s.nfp * p) }

/-- `update`, `surface_geometry.cc:102-123` -/
noncomputable def update (old : SArr) (oldS : Surf) : Surf := c.derived (c.inverseDFT old) oldS

end SCtx
end Verif.Nestor
