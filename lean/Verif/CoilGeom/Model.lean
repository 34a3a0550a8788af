import Verif.Makegrid.Model
import Mathlib.Analysis.SpecialFunctions.Complex.Arg

/-!
# Vectors, frames, radial movement, axis tables and the linking current

`common/composed_types_lib/composed_types_lib.cc`, `MoveRadially` of
`common/magnetic_configuration_lib/magnetic_configuration_lib.cc` and `LinkingCurrent` of
`common/magnetic_field_provider/magnetic_field_provider_lib.cc`.

Numbers are exact reals.  A `Vector3d` whose component was never set reads as 0
(`composed_types.h`), which is what the constructors of `V` produce here.
-/

namespace Verif.CoilGeom

open Verif.Coils (Str strip getlines isSpace Conv)
open Verif.Makegrid (V hypot)

/-! ## vectors: composed_types_lib.cc:45-143 -/

/-- `Length`, lines 45-47 -/
noncomputable def length (a : V) : ℝ := hypot a

/-- `ScaleTo`, lines 49-57.  For a vector of length 0 the factor is infinite or NaN and the products with the zero
    components are NaN: `none`. -/
noncomputable def scaleTo (a : V) (desired : ℝ) : Option V :=
  let len := length a
  if len = 0 then none
  else
    let f := desired / len
    some (a.1 * f, a.2.1 * f, a.2.2 * f)

/-- `Add`, lines 63-69 -/
noncomputable def add (a b : V) : V := (a.1 + b.1, a.2.1 + b.2.1, a.2.2 + b.2.2)

/-- `DotProduct`, lines 79-85 -/
noncomputable def dot (a b : V) : ℝ := 0 + a.1 * b.1 + a.2.1 * b.2.1 + a.2.2 * b.2.2

/-- `CrossProduct`, lines 87-96 -/
noncomputable def crossProduct (a b : V) : V :=
  (a.2.1 * b.2.2 - a.2.2 * b.2.1, a.2.2 * b.1 - a.1 * b.2.2, a.1 * b.2.1 - a.2.1 * b.1)

open Classical in
/-- `MostPerpendicularCoordinateAxis`, lines 98-116 -/
noncomputable def mostPerpendicular (a : V) : V :=
  let m := min (min |a.1| |a.2.1|) |a.2.2|
  if m = |a.1| then (1, 0, 0)
  else if m = |a.2.1| then (0, 1, 0)
  else (0, 0, 1)

/-- `OrthonormalFrameAroundAxis`, lines 118-143; `none`: some component is NaN -/
noncomputable def frame (axis : V) : Option (V × V × V) :=
  match scaleTo axis 1 with
  | none => none
  | some f0 =>
    let p := mostPerpendicular axis
    let d := dot f0 p
    match scaleTo f0 (-d) with
    | none => none
    | some q =>
      let f1 := add p q
      let f2 := crossProduct f0 f1
      some (f0, f1, f2)

/-! ## moving coils: magnetic_configuration_lib.cc:293-376 -/

/-- `CurrentCarrier` with real coordinates -/
inductive Carrier where
  | notSet
  | straight
  | fourier
  | circular (radius : ℝ) (center normal : V)
  | polygon (vertices : List V)

/-- one vertex, lines 317-324; `std::atan2(y, x)` is the argument of `x + i y`, 0 for the origin (for a negative zero
    `x` the library function returns π instead) -/
noncomputable def moveVertex (step : ℝ) (v : V) : V :=
  let r := Real.sqrt (v.1 * v.1 + v.2.1 * v.2.1)
  let phi := Complex.arg ⟨v.1, v.2.1⟩
  ((r + step) * Real.cos phi, (r + step) * Real.sin phi, v.2.2)

open Classical in
/-- `MoveRadially(CircularFilament)`, lines 293-310 -/
noncomputable def moveCircular (step radius : ℝ) (center normal : V) : Outcome ℝ :=
  if center.1 ≠ 0 ∨ center.2.1 ≠ 0 then .status "center has to be on origin"
  else if normal.1 ≠ 0 ∨ normal.2.1 ≠ 0 ∨ normal.2.2 = 0 then .status "normal has to be along z axis"
  else .ok (radius + step)

/-- the `switch`, lines 339-370: the carrier afterwards, and how the function goes on.  `CHECK_OK` of a failed status
    terminates the process. -/
noncomputable def moveCarrier (step : ℝ) : Carrier → Carrier × Outcome Unit
  | .straight => (.straight, .status "InfiniteStraightFilament")
  | .circular r c n =>
    match moveCircular step r c n with
    | .ok r' => (.circular r' c n, .ok ())
    | _ => (.circular r c n, .abort "CHECK_OK")
  | .polygon vs => (.polygon (vs.map (moveVertex step)), .ok ())
  | .fourier => (.fourier, .status "FourierFilament")
  | .notSet => (.notSet, .ok ())

/-- a loop over a `std::vector` whose body may return early: the elements afterwards, and how the loop ended -/
def walk {α : Type} (f : α → α × Outcome Unit) : List α → List α × Outcome Unit
  | [] => ([], .ok ())
  | a :: as =>
    match f a with
    | (a', .ok ()) => ((a' :: (walk f as).1), (walk f as).2)
    | (a', e) => (a' :: as, e)

/-- `MoveRadially(MagneticConfiguration)`, lines 327-376: circuits, coils, current carriers -/
noncomputable def moveConfig (step : ℝ) (c : List (List (List Carrier))) : List (List (List Carrier)) × Outcome Unit :=
  walk (walk (walk (moveCarrier step))) c

/-! ## curves: composed_types_lib.cc:145-312 -/

/-- `FourierCoefficient1D`; `none`: not set -/
structure Coef (α : Type) where
  mode : Option Int
  cos : Option α
  sin : Option α

/-- `CurveRZFourier` -/
structure Curve (α : Type) where
  r : List (Coef α)
  z : List (Coef α)

variable {α : Type}

/-- `mode_number()`: 0 when not set -/
def Coef.n (c : Coef α) : Int := c.mode.getD 0

/-- `IsFourierCoefficient1DFullyPopulated`, lines 145-163 -/
def coefPopulated (c : Coef α) : Bool :=
  if !c.cos.isSome && !c.sin.isSome then false
  else if !c.mode.isSome then false
  else true

/-- loop over the coefficients, lines 219-237 -/
def coefsPopulated : List (Coef α) → List (Coef α) → Bool
  | r :: rs, z :: zs =>
    if !coefPopulated r then false
    else if !coefPopulated z then false
    else if r.n ≠ z.n then false
    else coefsPopulated rs zs
  | _, _ => true

/-- `IsCurveRZFourierFullyPopulated`, lines 193-240 -/
def curvePopulated (c : Curve α) : Bool :=
  if c.r.length = 0 then false
  else if c.z.length = 0 then false
  else if c.r.length ≠ c.z.length then false
  else coefsPopulated c.r c.z

/-- pieces between commas -/
def splitComma : Str → List Str
  | [] => [[]]
  | c :: s =>
    if c = ',' then [] :: splitComma s
    else match splitComma s with
      | [] => [[c]]
      | p :: ps => (c :: p) :: ps

/-- `absl::StrSplit(s, absl::ByAnyChar(","), absl::SkipWhitespace())` -/
def fields (s : Str) : List Str := (splitComma s).filter fun p => !p.all isSpace

/-- the header line, lines 253 and 300 -/
def curveHeader : Str := "n,raxis_c,zaxis_s,raxis_s,zaxis_c".toList

/-- `std::stoi`/`std::stod` throw when the text does not start with a number -/
def orThrow {β : Type} : Option β → Outcome β
  | some b => .ok b
  | none => .throws "std::invalid_argument"

/-- one data line, lines 259-285, as the coefficient of `R` and that of `Z` -/
def readLine (stoi : Str → Option Int) (stod : Str → Option α) (line : Str) : Outcome (Coef α × Coef α) :=
  match fields (strip line) with
  | [n, rc, zs, rs, zc] => do
    let n ← orThrow (stoi n)
    let rc ← orThrow (stod rc)
    let zs ← orThrow (stod zs)
    let rs ← orThrow (stod rs)
    let zc ← orThrow (stod zc)
    pure (⟨some n, some rc, some rs⟩, ⟨some n, some zc, some zs⟩)
  | _ => .status "cannot parse line"

/-- the loop over the data lines, lines 259-286 -/
def readLines (stoi : Str → Option Int) (stod : Str → Option α) : List Str → Outcome (Curve α)
  | [] => .ok ⟨[], []⟩
  | l :: ls => do
    let c ← readLine stoi stod l
    let rest ← readLines stoi stod ls
    pure ⟨c.1 :: rest.r, c.2 :: rest.z⟩

/-- `CurveRZFourierFromCsv`, lines 242-289 -/
def fromCsv (stoi : Str → Option Int) (stod : Str → Option α) (text : Str) : Outcome (Curve α) :=
  match getlines text with
  | [] => .status "cannot read header line"
  | h :: ls => if h ≠ curveHeader then .status "header line not found" else readLines stoi stod ls

/-- one line of `CurveRZFourierToCsv`, lines 304-313; `printInt` and `printDouble` stand for `operator<<`, the latter
    with 16 digits -/
def writeLine [Zero α] (printInt : Int → Str) (printDouble : α → Str) (r z : Coef α) : Str :=
  printInt r.n ++ [','] ++ printDouble (r.cos.getD 0) ++ [','] ++ printDouble (z.sin.getD 0) ++ [','] ++
    printDouble (r.sin.getD 0) ++ [','] ++ printDouble (z.cos.getD 0) ++ ['\n']

/-- the loop, lines 303-313 -/
def writeLines [Zero α] (printInt : Int → Str) (printDouble : α → Str) : List (Coef α) → List (Coef α) → Str
  | r :: rs, z :: zs => writeLine printInt printDouble r z ++ writeLines printInt printDouble rs zs
  | _, _ => []

/-- `CurveRZFourierToCsv`, lines 291-316 -/
def toCsv [Zero α] (printInt : Int → Str) (printDouble : α → Str) (c : Curve α) : Outcome Str :=
  if !curvePopulated c then .status "not fully populated"
  else .ok (curveHeader ++ ['\n'] ++ writeLines printInt printDouble c.r c.z)

/-! ## LinkingCurrent: magnetic_field_provider_lib.cc:548-669 -/

/-- lines 563-572 -/
def maxMode (c : Curve ℝ) : Int :=
  (c.r.zip c.z).foldl (fun m p => max (max m p.1.n) p.2.n) 0

/-- lines 577-578 -/
def numPoints (c : Curve ℝ) (nfp : Int) : Int := 2 * (2 * maxMode c + 1) * nfp

/-- accumulators of lines 590-593 -/
structure Acc where
  r : ℝ
  z : ℝ
  tr : ℝ
  tz : ℝ

/-- contribution of one coefficient to a point and its derivative, lines 609-618 and 620-629 -/
noncomputable def contrib (co : Coef ℝ) (mode : ℝ) (ck sk : ℝ) (p : ℝ × ℝ) : ℝ × ℝ :=
  let p := match co.cos with
    | some c => (p.1 + c * ck, p.2 + c * mode * (-sk))
    | none => p
  match co.sin with
    | some s => (p.1 + s * sk, p.2 + s * mode * ck)
    | none => p

/-- body of the loop over the coefficients, lines 594-630; the mode number is that of `R` -/
noncomputable def accStep (k : ℝ) (dphi : ℝ) (a : Acc) (p : Coef ℝ × Coef ℝ) : Acc :=
  let mode : ℝ := p.1.n
  let kernel := k * mode * dphi
  let ck := Real.cos kernel
  let sk := Real.sin kernel
  let r := contrib p.1 mode ck sk (a.r, a.tr)
  let z := contrib p.2 mode ck sk (a.z, a.tz)
  ⟨r.1, z.1, r.2, z.2⟩

/-- point and tangent number `k`, lines 587-642 -/
noncomputable def pointTangent (c : Curve ℝ) (k dphi : ℝ) : V × V :=
  let cp := Real.cos (k * dphi)
  let sp := Real.sin (k * dphi)
  let a := (c.r.zip c.z).foldl (accStep k dphi) ⟨0, 0, 0, 0⟩
  ((a.r * cp, a.r * sp, a.z), (a.tr * cp - a.r * sp, a.tr * sp + a.r * cp, a.tz))

/-- the field of the configuration at all points; the call to `MagneticField` either fails or fills every entry -/
def evalAll (B : V → Outcome V) : List V → Outcome (List V)
  | [] => .ok []
  | p :: ps => do
    let b ← B p
    let bs ← evalAll B ps
    pure (b :: bs)

/-- `kMu0`, line 551 -/
noncomputable def kMu0 : ℝ := 4e-7 * Real.pi

/-- `LinkingCurrent`, lines 548-669, with the field of the configuration as the parameter `B`.
    `ok none` is a NaN: without points `2 π / 0` is infinite and is multiplied by the empty sum 0. -/
noncomputable def linkingCurrent (B : V → Outcome V) (nfp : Int) (c : Curve ℝ) : Outcome (Option ℝ) :=
  if !curvePopulated c then .status "not fully populated"
  else
    let n := numPoints c nfp
    if n < 0 then .throws "std::length_error"
    else
      let dphi := 2 * Real.pi / (n : ℝ)
      let pts := (List.range n.toNat).map fun k : ℕ => pointTangent c (k : ℝ) dphi
      match evalAll B (pts.map Prod.fst) with
      | .ok bs =>
        let s := (bs.zip (pts.map Prod.snd)).foldl
          (fun s p => s + (p.1.1 * p.2.1 + p.1.2.1 * p.2.2.1 + p.1.2.2 * p.2.2.2)) 0
        if n = 0 then .ok none else .ok (some (s * (2 * Real.pi / (n : ℝ)) / kMu0))
      | .status m => .status m
      | .abort m => .abort m
      | .throws m => .throws m
      | .ub m => .ub m

end Verif.CoilGeom
