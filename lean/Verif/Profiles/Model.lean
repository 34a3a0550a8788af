import Verif.Common.Outcome
import Verif.Common.Loop
import Mathlib.Analysis.SpecialFunctions.Pow.Real
import Mathlib.Analysis.SpecialFunctions.Trigonometric.Arctan
import Mathlib.Analysis.SpecialFunctions.ExpDeriv
import Mathlib.Analysis.Complex.Trigonometric

/-!
# Model of the radial profile functions

`cpp/vmecpp/vmec/radial_profiles/radial_profiles.cc`. Numbers are reals (no rounding); `std::pow(x, y)` with
a real exponent is `Real.rpow`, with the literal exponent 2 it is the square. A vector is a size `n` and a
function of the index.
-/
namespace Verif.Profiles
open Verif

/-- a coefficient / knot / value vector -/
structure RVec where
  n : Int
  v : Int → ℝ

/-- `Coef`, 55-57 -/
noncomputable def coef (c : RVec) (i : Int) : ℝ := if i ≥ 0 ∧ i < c.n then c.v i else 0

/-! ## polynomials -/

/-- `evalPowerSeries`, 615-631 -/
noncomputable def evalPowerSeries (c : RVec) (x : ℝ) (should_integrate : Bool) : ℝ :=
  let ret := forRangeRev 0 c.n (fun i ret =>
    if should_integrate then x * ret + c.v i / ((i + 1 : Int) : ℝ) else x * ret + c.v i) 0
  if should_integrate then ret * x else ret

/-- `evalPowerSeriesI`, 633-641 -/
noncomputable def evalPowerSeriesI (c : RVec) (x : ℝ) : ℝ :=
  forRangeRev 0 c.n (fun i ret => (ret + c.v i) * x) 0

/-- `torfluxDeriv`, 462-468 -/
noncomputable def torfluxDeriv (aphi : RVec) (x : ℝ) : ℝ :=
  forRangeRev 0 aphi.n (fun i t => x * t + ((i + 1 : Int) : ℝ) * aphi.v i) 0

/-- `torflux`, 476-484 -/
noncomputable def torflux (aphi : RVec) (x : ℝ) : ℝ :=
  forRangeRev 0 aphi.n (fun i t => x * t + aphi.v i) 0 * x

open Classical in
/-- `maxToroidalFlux` as computed by `computeMagneticFluxes`, 440-445 -/
noncomputable def maxToroidalFlux (aphi : RVec) (signOfJacobian phiedge : ℝ) : ℝ :=
  let f := signOfJacobian * phiedge / (2 * Real.pi)
  let edge := torflux aphi 1
  if edge ≠ 0 then f / edge else f

/-- the toroidal flux at which the profiles are evaluated, 1149 and 1204 -/
noncomputable def evalPosition (aphi : RVec) (x : ℝ) : ℝ := min (torflux aphi x) 1

/-! ## closed forms -/

/-- nodes and weights of the 10-point quadrature, 30-52 and 735-744: parameters -/
structure Quadrature where
  node : Int → ℝ
  weight : Int → ℝ

/-- `evalGaussTrunc`, 643-669 -/
noncomputable def evalGaussTrunc (q : Quadrature) (c : RVec) (x : ℝ) (shouldIntegrate : Bool) : ℝ :=
  if c.n < 2 then 0
  else
    let a0 := c.v 0
    let a1 := c.v 1
    let edge := Real.exp (-((1 / a1) ^ 2))
    if shouldIntegrate = false then (a0 / (1 - edge)) * (Real.exp (-((x / a1) ^ 2)) - edge)
    else forRange 0 10 (fun i s =>
      s + q.weight i * a0 * (Real.exp (-((x * q.node i / a1) ^ 2)) - edge)) 0 * x

/-- one term of `evalSumAtan` for `x < 1`, 696-716 -/
noncomputable def atanTerm (c : RVec) (k : Int) (x : ℝ) : ℝ :=
  c.v k * Real.arctan (c.v (k + 1) * x ^ c.v (k + 2) / (1 - x) ^ c.v (k + 3))

open Classical in
/-- `evalSumAtan`, 671-718 -/
noncomputable def evalSumAtan (c : RVec) (x : ℝ) : ℝ :=
  let ret : ℝ := if c.n > 0 then c.v 0 else 0
  if x ≥ 1 then
    let ret := if c.n ≥ 2 then ret + c.v 1 else ret
    let ret := if c.n ≥ 6 then ret + c.v 5 else ret
    let ret := if c.n ≥ 10 then ret + c.v 9 else ret
    let ret := if c.n ≥ 14 then ret + c.v 13 else ret
    if c.n ≥ 18 then ret + c.v 17 else ret
  else
    let ret := if c.n ≥ 5 then ret + atanTerm c 1 x else ret
    let ret := if c.n ≥ 9 then ret + atanTerm c 5 x else ret
    let ret := if c.n ≥ 13 then ret + atanTerm c 9 x else ret
    let ret := if c.n ≥ 17 then ret + atanTerm c 13 x else ret
    if c.n ≥ 21 then ret + atanTerm c 17 x else ret

/-- the repeated subexpression of `evalTwoLorentz`: `1/(1+(x/w^2)^p)^q` -/
noncomputable def lorentz (w p q x : ℝ) : ℝ := 1 / (1 + (x / (w * w)) ^ p) ^ q

/-- `evalTwoLorentz`, 720-751 -/
noncomputable def evalTwoLorentz (c : RVec) (x : ℝ) : ℝ :=
  if c.n < 8 then 0
  else c.v 0 *
    (c.v 1 * (lorentz (c.v 2) (c.v 3) (c.v 4) x - lorentz (c.v 2) (c.v 3) (c.v 4) 1) /
        (1 - lorentz (c.v 2) (c.v 3) (c.v 4) 1) +
     (1 - c.v 1) * (lorentz (c.v 5) (c.v 6) (c.v 7) x - lorentz (c.v 5) (c.v 6) (c.v 7) 1) /
        (1 - lorentz (c.v 5) (c.v 6) (c.v 7) 1))

/-- `evalTwoPower`, 753-787 -/
noncomputable def evalTwoPower (q : Quadrature) (c : RVec) (x : ℝ) (shouldIntegrate : Bool) : ℝ :=
  if c.n < 3 then 0
  else if shouldIntegrate = false then c.v 0 * (1 - x ^ c.v 1) ^ c.v 2
  else forRange 0 10 (fun i s => s + q.weight i * c.v 0 * (1 - (x * q.node i) ^ c.v 1) ^ c.v 2) 0 * x

/-- the lambda `raw` of `evalTwoPowerGs`, 803-815; `i` runs over 3, 6, …, 18 -/
noncomputable def twoPowerGsRaw (c : RVec) (s : ℝ) : ℝ :=
  let two_power := coef c 0 * (1 - s ^ coef c 1) ^ coef c 2
  let gaussian := forRange 1 7 (fun k (g : ℝ) =>
    let amplitude := coef c (3 * k)
    open Classical in
    if amplitude ≠ 0 then
      g + amplitude * Real.exp (-(((s - coef c (3 * k + 1)) / coef c (3 * k + 2)) ^ 2))
    else g) 1
  two_power * gaussian

/-- `evalTwoPowerGs`, 789-826 -/
noncomputable def evalTwoPowerGs (q : Quadrature) (c : RVec) (x : ℝ) (shouldIntegrate : Bool) : ℝ :=
  if c.n < 3 then 0
  else if shouldIntegrate = false then twoPowerGsRaw c x
  else forRange 0 10 (fun i s => s + q.weight i * twoPowerGsRaw c (x * q.node i)) 0 * x

open Classical in
/-- `evalPedestal`, 971-1031, pressure branch 1011-1030; the width `1.0e30` of the disabled pedestal has no
    effect because the normalisation is 0 -/
noncomputable def evalPedestalPressure (c : RVec) (x : ℝ) : ℝ :=
  let value := forRangeRev 0 16 (fun i value => x * value + coef c i) 0
  let width0 := coef c 19
  let normalization := if width0 ≤ 0 then 0
    else 1 / (Real.tanh (2 * coef c 18 / width0) - Real.tanh (2 * (coef c 18 - 1) / width0))
  let width := if width0 ≤ 0 then (10 : ℝ) ^ 30 else width0
  value + normalization * coef c 17 *
    (Real.tanh (2 * (coef c 18 - Real.sqrt x) / width) - Real.tanh (2 * (coef c 18 - 1) / width))

open Classical in
/-- `evalPedestal`, current branch 978-1009 -/
noncomputable def evalPedestalCurrent (c : RVec) (x : ℝ) : ℝ :=
  let value := forRangeRev 0 8 (fun i value => x * value + coef c i / ((i : ℝ) + 1)) 0 * x
  let width0 := coef c 11
  let amplitude := if width0 ≤ 0 then 0 else coef c 8
  let normalization := if width0 ≤ 0 then 0
    else 1 / (Real.tanh (2 * coef c 10 / width0) - Real.tanh (2 * (coef c 10 - 1) / width0))
  let width := if width0 ≤ 0 then (10 : ℝ) ^ 30 else width0
  let width1 := max (coef c 16) (1 / 100)
  let width2 := max (coef c 20) (1 / 100)
  let g1 := (x - coef c 15) / width1
  let g3 := (-coef c 15) / width1
  let g2 := (x - coef c 19) / width2
  let g4 := (-coef c 19) / width2
  value + (normalization * amplitude *
      (Real.tanh (2 * coef c 10 / width) - Real.tanh (2 * (coef c 10 - Real.sqrt x) / width)) +
    coef c 13 * (Real.tanh g1 - Real.tanh g3) + coef c 17 * (Real.tanh g2 - Real.tanh g4))

/-- `std::numeric_limits<double>::max()` -/
noncomputable def dblMax : ℝ := (2 - 1 / 2 ^ (52 : ℕ)) * 2 ^ (1023 : ℕ)

/-- `evalRational`, 1033-1047 -/
noncomputable def evalRational (c : RVec) (x : ℝ) : ℝ :=
  let numerator := forRangeRev 0 10 (fun i r => x * r + coef c i) 0
  let denominator := forRangeRev 10 c.n (fun i r => x * r + coef c i) 0
  open Classical in if denominator ≠ 0 then numerator / denominator else dblMax

/-- `evalNiceQuadratic`, 1120-1127 -/
noncomputable def evalNiceQuadratic (c : RVec) (x : ℝ) : ℝ :=
  coef c 0 * (1 - x) + coef c 1 * x + 4 * coef c 2 * x * (1 - x)

/-! ## line segments -/

open Classical in
/-- `std::lower_bound(begin, end, x) - begin` on sorted knots: the number of knots that are less than `x`.
    (The standard requires the range to be partitioned; for sorted knots this is the result.) -/
noncomputable def lowerBound (knots : RVec) (x : ℝ) : Int :=
  forRange 0 knots.n (fun i k => if knots.v i < x then k + 1 else k) 0

/-- `evalLineSegment`, 1051-1074 -/
noncomputable def evalLineSegment (knots values : RVec) (x : ℝ) : ℝ :=
  let n := knots.n
  if n < 2 ∨ n ≠ values.n then 0
  else
    let it := lowerBound knots x
    if it ≥ n - 1 then values.v (n - 1)
    else if it = 0 then values.v 0
    else
      let x0 := knots.v it
      let x1 := knots.v (it + 1)
      let y0 := values.v it
      let y1 := values.v (it + 1)
      let t := (x - x0) / (x1 - x0)
      (1 - t) * y0 + t * y1

open Classical in
/-- division; a zero divisor gives a non-finite number, here `throws` (no real value) -/
noncomputable def fdiv (a b : ℝ) : Outcome ℝ := if b = 0 then .throws "not a number" else .ok (a / b)

/-- the lambda `integrate_segment`, 1083-1087 -/
noncomputable def integrateSegment (x0 x1 y0 y1 : ℝ) : Outcome ℝ := do
  let m ← fdiv (y1 - y0) (x1 - x0)
  let b := y0 - m * x0
  pure (m * (1 / 2) * (x1 * x1 - x0 * x0) + b * (x1 - x0))

open Classical in
/-- the `while` loop 1097-1102, with fuel `n` (it runs at most `n - 1` times) -/
noncomputable def segLoop (knots values : RVec) (xi : ℝ) : Nat → Int → ℝ → Outcome (Int × ℝ)
  | 0, idx, result => .ok (idx, result)
  | fuel + 1, idx, result =>
    if idx < knots.n - 1 ∧ xi > knots.v (idx + 1) then do
      let d ← integrateSegment (knots.v idx) (knots.v (idx + 1)) (values.v idx) (values.v (idx + 1))
      segLoop knots values xi fuel (idx + 1) (result + d)
    else .ok (idx, result)

open Classical in
/-- `evalLineSegmentIntegrated`, 1076-1118. `splineKnots[idx + 1]` with `idx = n - 1` is out of bounds. -/
noncomputable def evalLineSegmentIntegrated (knots values : RVec) (x : ℝ) : Outcome ℝ :=
  let n := knots.n
  if n < 2 ∨ n ≠ values.n then .ok 0
  else if x ≤ knots.v 0 then do
    let d ← integrateSegment 0 x (values.v 0) (evalLineSegment knots values x)
    pure (0 + d)
  else do
    let (idx, result) ← segLoop knots values x n.toNat 0 0
    if idx + 1 ≥ n then .ub "splineKnots[n]"
    else
      let x0 := knots.v idx
      let x1 := min x (knots.v (idx + 1))
      let d ← integrateSegment x0 x1 (values.v idx) (values.v (idx + 1))
      let result := result + d
      if x > knots.v (n - 1) then do
        let d ← integrateSegment (knots.v (n - 1)) x (values.v (n - 1)) (evalLineSegment knots values x)
        pure (result + d)
      else pure result

/-! ## cubic splines -/

/-- boundary slopes, 163-171 -/
noncomputable def yp1 (xa ya : Int → ℝ) : ℝ :=
  let c := ((ya 2 - ya 0) / (xa 2 - xa 0) - (ya 1 - ya 0) / (xa 1 - xa 0)) / (xa 2 - xa 1)
  (ya 1 - ya 0) / (xa 1 - xa 0) - c * (xa 1 - xa 0)

noncomputable def ypn (n : Int) (xa ya : Int → ℝ) : ℝ :=
  let c := ((ya (n - 3) - ya (n - 1)) / (xa (n - 3) - xa (n - 1)) -
      (ya (n - 2) - ya (n - 1)) / (xa (n - 2) - xa (n - 1))) / (xa (n - 3) - xa (n - 2))
  (ya (n - 2) - ya (n - 1)) / (xa (n - 2) - xa (n - 1)) - c * (xa (n - 2) - xa (n - 1))

/-- one step of the forward elimination, 176-187; the pair is `(y2, u)` -/
noncomputable def cubicForward (xa ya : Int → ℝ) (i : Int) (s : (Int → ℝ) × (Int → ℝ)) :
    (Int → ℝ) × (Int → ℝ) :=
  let sig := (xa i - xa (i - 1)) / (xa (i + 1) - xa (i - 1))
  let p := sig * s.1 (i - 1) + 2
  (upd s.1 i ((sig - 1) / p),
   upd s.2 i ((6 * ((ya (i + 1) - ya i) / (xa (i + 1) - xa i) - (ya i - ya (i - 1)) / (xa i - xa (i - 1))) /
      (xa (i + 1) - xa (i - 1)) - sig * s.2 (i - 1)) / p))

/-- `BuildCubicSecondDerivatives`, 160-193 (sizes at least 4, as the callers check) -/
noncomputable def buildCubic (n : Int) (xa ya : Int → ℝ) : Int → ℝ :=
  let y2 := upd (fun _ => 0) 0 (-1 / 2)
  let u := upd (fun _ => 0) 0 ((3 / (xa 1 - xa 0)) * ((ya 1 - ya 0) / (xa 1 - xa 0) - yp1 xa ya))
  let s := forRange 1 (n - 1) (cubicForward xa ya) (y2, u)
  let qn : ℝ := 1 / 2
  let un := (3 / (xa (n - 1) - xa (n - 2))) * (ypn n xa ya - (ya (n - 1) - ya (n - 2)) / (xa (n - 1) - xa (n - 2)))
  let y2 := upd s.1 (n - 1) ((un - qn * s.2 (n - 2)) / (qn * s.1 (n - 2) + 1))
  forRangeRev 0 (n - 1) (fun k y2 => upd y2 k (y2 k * y2 (k + 1) + s.2 k)) y2

open Classical in
/-- the loop of `CubicLowerIndex`, 197-209, with fuel; `(khi + klo) / 2` of non-negative integers -/
noncomputable def bisect (xa : Int → ℝ) (x : ℝ) : Nat → Int → Int → Int
  | 0, klo, _ => klo
  | fuel + 1, klo, khi =>
    if khi - klo > 1 then
      let k := (khi + klo) / 2
      if xa k > x then bisect xa x fuel klo k else bisect xa x fuel k khi
    else klo

/-- `CubicLowerIndex` -/
noncomputable def cubicLowerIndex (n : Int) (xa : Int → ℝ) (x : ℝ) : Int := bisect xa x n.toNat 0 (n - 1)

open Classical in
/-- `evalCubic`, 908-933 -/
noncomputable def evalCubic (knots values : RVec) (x : ℝ) : ℝ :=
  let n := knots.n
  if n < 4 ∨ n ≠ values.n then 0
  else if x < knots.v 0 ∨ x > knots.v (n - 1) then 0
  else
    let y2 := buildCubic n knots.v values.v
    let klo := cubicLowerIndex n knots.v x
    let khi := klo + 1
    let h := knots.v khi - knots.v klo
    let a := (knots.v khi - x) / h
    let b := (x - knots.v klo) / h
    a * values.v klo + b * values.v khi + ((a * a * a - a) * y2 klo + (b * b * b - b) * y2 khi) * (h * h) / 6

open Classical in
/-- `evalCubicIntegrated`, 935-969 -/
noncomputable def evalCubicIntegrated (knots values : RVec) (x : ℝ) : ℝ :=
  let n := knots.n
  if n < 4 ∨ n ≠ values.n then 0
  else if x < knots.v 0 ∨ x > knots.v (n - 1) then 0
  else
    let y2 := buildCubic n knots.v values.v
    let klo := cubicLowerIndex n knots.v x
    let khi := klo + 1
    let pre := forRange 0 klo (fun i s =>
      let dxa := knots.v (i + 1) - knots.v i
      s + ((1 / 2) * dxa * (values.v (i + 1) + values.v i) - (dxa * dxa * dxa) * (y2 (i + 1) + y2 i) / 24)) 0
    let h := knots.v khi - knots.v klo
    let dx := x - knots.v klo
    let dya := values.v khi - values.v klo
    let dy2a := y2 khi - y2 klo
    let y := values.v klo * dx + (1 / 2) * dya * dx * dx / h + y2 klo * dx * dx * (2 * dx - 3 * h) / 12 +
      dy2a * dx * dx * (dx * dx - 2 * h * h) / (h * 24)
    y + pre

/-! ## Akima splines

The arrays of `BuildAkimaCoeffs` are written by loops whose iterations are independent; they are given here
as functions of the Fortran index `f` (`-1 … iv + 2`). -/

/-- `X`, 97-101 -/
noncomputable def akX (iv : Int) (xx : Int → ℝ) (f : Int) : ℝ :=
  if f = -1 then 2 * xx 0 - xx 2
  else if f = 0 then xx 0 + xx 1 - xx 2
  else if f = iv + 2 then 2 * xx (iv - 1) - xx (iv - 3)
  else if f = iv + 1 then xx (iv - 1) + xx (iv - 2) - xx (iv - 3)
  else xx (f - 1)

/-- the interior slopes `M(f)`, 106-107, `1 ≤ f ≤ iv - 1` -/
noncomputable def akSlope (iv : Int) (xx yy : Int → ℝ) (f : Int) : ℝ :=
  (yy f - yy (f - 1)) / (akX iv xx (f + 1) - akX iv xx f)

/-- `Y` after 109-127: values at the knots and extrapolated values at the phantom knots -/
noncomputable def akY (iv : Int) (xx yy : Int → ℝ) (f : Int) : ℝ :=
  let X := akX iv xx
  let M := akSlope iv xx yy
  let cl := (M 2 - M 1) / (X 3 - X 1)
  let bl := M 1 - cl * (X 2 - X 1)
  let cr := (M (iv - 1) - M (iv - 2)) / (X iv - X (iv - 2))
  let br := M (iv - 1) - cr * (X (iv - 1) - X iv)
  if f = 0 ∨ f = -1 then yy 0 + bl * (X f - X 1) + cl * (X f - X 1) ^ 2
  else if f = iv + 1 ∨ f = iv + 2 then yy (iv - 1) + br * (X f - X iv) + cr * (X f - X iv) ^ 2
  else yy (f - 1)

/-- `M` after 129-132 -/
noncomputable def akM (iv : Int) (xx yy : Int → ℝ) (f : Int) : ℝ :=
  (akY iv xx yy (f + 1) - akY iv xx yy f) / (akX iv xx (f + 1) - akX iv xx f)

/-- `DM`, 134 -/
noncomputable def akDM (iv : Int) (xx yy : Int → ℝ) (f : Int) : ℝ := |akM iv xx yy (f + 1) - akM iv xx yy f|

/-- `std::numeric_limits<double>::min()` -/
noncomputable def dblMin : ℝ := 1 / 2 ^ (1022 : ℕ)

open Classical in
/-- `P`, `Q`, 135-141 -/
noncomputable def akP (iv : Int) (xx yy : Int → ℝ) (i : Int) : ℝ :=
  let denom := akDM iv xx yy i + akDM iv xx yy (i - 2)
  if denom ≠ 0 then akDM iv xx yy i / denom else 0

open Classical in
noncomputable def akQ (iv : Int) (xx yy : Int → ℝ) (i : Int) : ℝ :=
  let denom := akDM iv xx yy i + akDM iv xx yy (i - 2)
  if denom ≠ 0 then akDM iv xx yy (i - 2) / denom else 0

open Classical in
/-- `T`, 142-147 -/
noncomputable def akT (iv : Int) (xx yy : Int → ℝ) (i : Int) : ℝ :=
  if akP iv xx yy i + akQ iv xx yy i < dblMin then
    (1 / 2) * akM iv xx yy (i - 1) + (1 / 2) * akM iv xx yy i
  else akP iv xx yy i * akM iv xx yy (i - 1) + akQ iv xx yy i * akM iv xx yy i

/-- `A`, `B`, `C`, `D` for `1 ≤ i ≤ iv - 1`, 148-156 -/
noncomputable def akA (iv : Int) (xx yy : Int → ℝ) (i : Int) : ℝ := akY iv xx yy i
noncomputable def akB (iv : Int) (xx yy : Int → ℝ) (i : Int) : ℝ := akT iv xx yy i
noncomputable def akC (iv : Int) (xx yy : Int → ℝ) (i : Int) : ℝ :=
  (3 * akM iv xx yy i - akT iv xx yy (i + 1) - 2 * akT iv xx yy i) / (akX iv xx (i + 1) - akX iv xx i)
noncomputable def akD (iv : Int) (xx yy : Int → ℝ) (i : Int) : ℝ :=
  (akT iv xx yy (i + 1) + akT iv xx yy i - 2 * akM iv xx yy i) /
    ((akX iv xx (i + 1) - akX iv xx i) * (akX iv xx (i + 1) - akX iv xx i))

open Classical in
/-- body of the search loop of `evalAkima`, 847-855: the first interval containing `x` is taken -/
noncomputable def akStep (iv : Int) (xx yy : Int → ℝ) (x : ℝ) (i : Int) (found : Option ℝ) : Option ℝ :=
  match found with
  | some y => some y
  | none =>
    if x ≥ akX iv xx i ∧ x < akX iv xx (i + 1) then
      let dx := x - akX iv xx i
      some (akA iv xx yy i + dx * (akB iv xx yy i + dx * (akC iv xx yy i + akD iv xx yy i * dx)))
    else none

open Classical in
/-- `evalAkima`, 828-858 -/
noncomputable def evalAkima (knots values : RVec) (x : ℝ) : ℝ :=
  let iv := knots.n
  if iv < 4 ∨ iv ≠ values.n then 0
  else if x < akX iv knots.v 1 ∨ x > akX iv knots.v iv then 0
  else if x = akX iv knots.v iv then values.v (iv - 1)
  else (forRange 1 iv (akStep iv knots.v values.v x) none).getD 0

/-- integral over a complete interval, 879-884 -/
noncomputable def akInterval (iv : Int) (xx yy : Int → ℝ) (i : Int) : ℝ :=
  let dx := akX iv xx (i + 1) - akX iv xx i
  akA iv xx yy i * dx + (1 / 2) * akB iv xx yy i * dx * dx + (1 / 3) * akC iv xx yy i * dx * dx * dx +
    (1 / 4) * akD iv xx yy i * dx * dx * dx * dx

open Classical in
/-- body of the loop of `evalAkimaIntegrated`, 893-904; the state is the sum and the returned value -/
noncomputable def akIntStep (iv : Int) (xx yy : Int → ℝ) (x : ℝ) (i : Int) (s : ℝ × Option ℝ) : ℝ × Option ℝ :=
  match s.2 with
  | some _ => s
  | none =>
    if x ≥ akX iv xx (i + 1) then (s.1 + akInterval iv xx yy i, none)
    else
      let dx := x - akX iv xx i
      (s.1, some (s.1 + dx * (akA iv xx yy i + dx * ((1 / 2) * akB iv xx yy i +
        dx * ((1 / 3) * akC iv xx yy i + (1 / 4) * akD iv xx yy i * dx)))))

open Classical in
/-- `evalAkimaIntegrated`, 860-906 -/
noncomputable def evalAkimaIntegrated (knots values : RVec) (x : ℝ) : ℝ :=
  let iv := knots.n
  if iv < 4 ∨ iv ≠ values.n then 0
  else if x ≥ akX iv knots.v iv then forRange 1 iv (fun i y => y + akInterval iv knots.v values.v i) 0
  else if x ≤ akX iv knots.v 1 then 0
  else
    let r := forRange 1 iv (akIntStep iv knots.v values.v x) (0, none)
    r.2.getD r.1

/-! ## names -/

inductive Kind where
  | pressure | current | iota
  deriving DecidableEq, Repr

structure Param where
  name : String
  pres : Bool
  curr : Bool
  iota : Bool
  deriving DecidableEq

/-- `setupProfileParameterizations`, 317-386 (index in the list = value of the enum) -/
def allParams : List Param := [
  ⟨"---invalid---", false, false, false⟩,
  ⟨"power_series", true, true, true⟩,
  ⟨"power_series_i", false, true, false⟩,
  ⟨"gauss_trunc", true, true, false⟩,
  ⟨"sum_atan", false, true, true⟩,
  ⟨"two_lorentz", true, false, false⟩,
  ⟨"two_power", true, true, false⟩,
  ⟨"two_power_gs", true, true, false⟩,
  ⟨"akima_spline", true, false, true⟩,
  ⟨"akima_spline_i", false, true, false⟩,
  ⟨"akima_spline_ip", false, true, false⟩,
  ⟨"cubic_spline", true, false, true⟩,
  ⟨"cubic_spline_i", false, true, false⟩,
  ⟨"cubic_spline_ip", false, true, false⟩,
  ⟨"pedestal", true, true, false⟩,
  ⟨"rational", true, true, true⟩,
  ⟨"line_segment", true, false, true⟩,
  ⟨"line_segment_i", false, true, false⟩,
  ⟨"line_segment_ip", false, true, false⟩,
  ⟨"nice_quadratic", false, false, true⟩,
  ⟨"sum_cossq_s", false, true, false⟩,
  ⟨"sum_cossq_sqrts", false, true, false⟩,
  ⟨"sum_cossq_s_free", false, true, false⟩]

def Param.allowed (p : Param) : Kind → Bool
  | .pressure => p.pres
  | .current => p.curr
  | .iota => p.iota

/-- `findParameterization`, 389-424: the enum value, 0 is `INVALID_PARAM` -/
def findParameterization (name : String) (k : Kind) : Nat :=
  let rec go : Nat → List Param → Nat
    | _, [] => 0
    | i, p :: l => if name = p.name then (if p.allowed k then i else 0) else go (i + 1) l
  go 0 allParams

/-- `evalProfileFunction`, 561-613. The default branch prints a message and returns 0. -/
noncomputable def evalProfileFunction (q : Quadrature) (param : Nat) (coeffs knots values : RVec)
    (shouldIntegrate : Bool) (x : ℝ) : Outcome ℝ :=
  match param with
  | 1 => .ok (evalPowerSeries coeffs x shouldIntegrate)
  | 2 => .ok (evalPowerSeriesI coeffs x)
  | 3 => .ok (evalGaussTrunc q coeffs x shouldIntegrate)
  | 4 => .ok (evalSumAtan coeffs x)
  | 5 => .ok (evalTwoLorentz coeffs x)
  | 6 => .ok (evalTwoPower q coeffs x shouldIntegrate)
  | 7 => .ok (evalTwoPowerGs q coeffs x shouldIntegrate)
  | 8 => .ok (evalAkima knots values x)
  | 9 => .ok (evalAkima knots values x)
  | 10 => .ok (evalAkimaIntegrated knots values x)
  | 11 => .ok (evalCubic knots values x)
  | 12 => .ok (evalCubic knots values x)
  | 13 => .ok (evalCubicIntegrated knots values x)
  | 14 => .ok (if shouldIntegrate then evalPedestalCurrent coeffs x else evalPedestalPressure coeffs x)
  | 15 => .ok (evalRational coeffs x)
  | 16 => .ok (evalLineSegment knots values x)
  | 17 => .ok (evalLineSegment knots values x)
  | 18 => evalLineSegmentIntegrated knots values x
  | 19 => .ok (evalNiceQuadratic coeffs x)
  | _ => .ok 0

/-- the input of one profile: name, coefficients, knots, values (`pmass_type`, `am`, `am_aux_s`, `am_aux_f`) -/
structure ProfileIn where
  name : String
  coeffs : RVec
  knots : RVec
  values : RVec

/-- `evalMassProfile`, 529-539: the type was set by `setupInputProfiles` (279) -/
noncomputable def evalMassProfile (q : Quadrature) (p : ProfileIn) (bloat pressureScalingFactor x : ℝ) : Outcome ℝ := do
  let v ← evalProfileFunction q (findParameterization p.name .pressure) p.coeffs p.knots p.values false
    (min |x * bloat| 1)
  pure (v * pressureScalingFactor)

/-- `evalIotaProfile`, 541-546 -/
noncomputable def evalIotaProfile (q : Quadrature) (p : ProfileIn) (x : ℝ) : Outcome ℝ :=
  evalProfileFunction q (findParameterization p.name .iota) p.coeffs p.knots p.values false x

/-- `evalCurrProfile`, 548-559 -/
noncomputable def evalCurrProfile (q : Quadrature) (p : ProfileIn) (bloat x : ℝ) : Outcome ℝ :=
  evalProfileFunction q (findParameterization p.name .current) p.coeffs p.knots p.values true
    (min |x * bloat| 1)

end Verif.Profiles
