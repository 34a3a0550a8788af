import Verif.Common.Outcome
import Verif.Coils.Model
import Mathlib.Data.Int.Log
import Mathlib.Algebra.Order.Round
import Mathlib.Data.Rat.Floor

/-!
# Curves and surfaces in CSV files

`common/composed_types_lib/composed_types_lib.cc` and
`common/composed_types_definition/composed_types.h`.  Text is a list of characters, handled as in
`Verif.Coils`.  Coefficients are finite doubles, given by their exact value in ℚ.
-/
namespace Verif.Csv
open Verif Verif.Coils

/-- `FourierCoefficient1D`, `composed_types.h:76-131`; `none`: `has_...` is false -/
structure Coef1 where
  fcCos : Option ℚ
  fcSin : Option ℚ
  mode : Option Int

/-- `FourierCoefficient2D`, `composed_types.h:133-205` -/
structure Coef2 where
  fcCos : Option ℚ
  fcSin : Option ℚ
  m : Option Int
  n : Option Int

/-- `CurveRZFourier` -/
structure Curve where
  r : List Coef1
  z : List Coef1

/-- `SurfaceRZFourier` -/
structure Surface where
  r : List Coef2
  z : List Coef2

/-- The conversions of the standard library: `showI` of `<<` for `int`, `num` the text of a decimal
    number as `<<` writes it, and `std::stoi`/`std::stod` (`none`: they throw). -/
structure Fmt where
  showI : Int → Str
  num : ℚ → Str
  stoi : Str → Option Int
  stod : Str → Option ℚ

/-- The decimal number that `<< std::setprecision(16)` writes: the value rounded to 16 significant
    digits.  Simplified: ties are rounded up and not to even. -/
def round16 (q : ℚ) : ℚ :=
  round (q / 10 ^ (Int.log 10 |q| - 15)) * 10 ^ (Int.log 10 |q| - 15)

/-- `IsFourierCoefficient1DFullyPopulated`, `composed_types_lib.cc:145-163` -/
def checkCoef1 (c : Coef1) : Outcome Unit :=
  if c.fcCos.isNone && c.fcSin.isNone then .status "neither a cosine nor a sine coefficient"
  else if c.mode.isNone then .status "no mode number set"
  else .ok ()

/-- `IsFourierCoefficient2DFullyPopulated`, `composed_types_lib.cc:165-190` -/
def checkCoef2 (c : Coef2) : Outcome Unit :=
  if c.fcCos.isNone && c.fcSin.isNone then .status "neither a cosine nor a sine coefficient"
  else if c.m.isNone then .status "no poloidal mode number set"
  else if c.n.isNone then .status "no toroidal mode number set"
  else .ok ()

/-- loop `composed_types_lib.cc:216-235`; the lists have the same length -/
def checkCurveLoop : List Coef1 → List Coef1 → Outcome Unit
  | r :: rs, z :: zs => do
    checkCoef1 r
    checkCoef1 z
    if r.mode.getD 0 ≠ z.mode.getD 0 then .status "different mode numbers"
    else checkCurveLoop rs zs
  | _, _ => .ok ()

/-- `IsCurveRZFourierFullyPopulated`, `composed_types_lib.cc:192-238` -/
def checkCurve (c : Curve) : Outcome Unit :=
  if c.r.length = 0 then .status "no FourierCoefficient1D for R"
  else if c.z.length = 0 then .status "no FourierCoefficient1D for Z"
  else if c.r.length ≠ c.z.length then .status "different number"
  else checkCurveLoop c.r c.z

/-- loop `composed_types_lib.cc:423-455` -/
def checkSurfaceLoop : List Coef2 → List Coef2 → Outcome Unit
  | r :: rs, z :: zs => do
    checkCoef2 r
    checkCoef2 z
    if r.m.getD 0 ≠ z.m.getD 0 then .status "different poloidal mode numbers"
    else if r.n.getD 0 ≠ z.n.getD 0 then .status "different toroidal mode numbers"
    else checkSurfaceLoop rs zs
  | _, _ => .ok ()

/-- `IsSurfaceRZFourierFullyPopulated`, `composed_types_lib.cc:399-458` -/
def checkSurface (c : Surface) : Outcome Unit :=
  if c.r.length = 0 then .status "no FourierCoefficient1D for R"
  else if c.z.length = 0 then .status "no FourierCoefficient1D for Z"
  else if c.r.length ≠ c.z.length then .status "different number"
  else checkSurfaceLoop c.r c.z

/-! ## writing -/

variable (F : Fmt)

/-- `ss << std::setprecision(16) << x` for an accessor that gives 0 when nothing was set -/
def put (x : Option ℚ) : Str := F.num (round16 (x.getD 0))

/-- one line, `composed_types_lib.cc:307-315` -/
def curveLine (r z : Coef1) : Str :=
  F.showI (r.mode.getD 0) ++ ',' :: (put F r.fcCos ++ ',' :: (put F z.fcSin ++
    ',' :: (put F r.fcSin ++ ',' :: put F z.fcCos)))

def curveHeader : Str := "n,raxis_c,zaxis_s,raxis_s,zaxis_c".toList

/-- all lines with their line feeds -/
def joinLines : List Str → Str
  | [] => []
  | l :: ls => l ++ '\n' :: joinLines ls

/-- `CurveRZFourierToCsv`, `composed_types_lib.cc:291-319` -/
def curveToCsv (c : Curve) : Outcome Str := do
  checkCurve c
  .ok (joinLines (curveHeader :: List.zipWith (curveLine F) c.r c.z))

/-- one line, `composed_types_lib.cc:522-532` -/
def surfaceLine (r z : Coef2) : Str :=
  F.showI (r.n.getD 0) ++ ',' :: (F.showI (r.m.getD 0) ++ ',' :: (put F r.fcCos ++
    ',' :: (put F z.fcSin ++ ',' :: (put F r.fcSin ++ ',' :: put F z.fcCos))))

def surfaceHeader : Str := "n,m,rbc,zbs,rbs,zbc".toList

/-- `SurfaceRZFourierToCsv`, `composed_types_lib.cc:505-536` -/
def surfaceToCsv (c : Surface) : Outcome Str := do
  checkSurface c
  .ok (joinLines (surfaceHeader :: List.zipWith (surfaceLine F) c.r c.z))

/-! ## reading -/

/-- pieces between commas -/
def splitComma : Str → List Str
  | [] => [[]]
  | c :: s =>
    if c = ',' then [] :: splitComma s
    else match splitComma s with
      | [] => [[c]]
      | p :: ps => (c :: p) :: ps

/-- `absl::StrSplit(s, absl::ByAnyChar(","), absl::SkipWhitespace())` -/
def fields (s : Str) : List Str := (splitComma s).filter fun p => !p.all isSpace

/-- body of the loop `composed_types_lib.cc:258-286` -/
def readCurveLine (raw : Str) : Outcome (Coef1 × Coef1) :=
  match fields (strip raw) with
  | [a, b, c, d, e] =>
    match F.stoi a with
    | none => .throws "stoi"
    | some n =>
      match F.stod b, F.stod c, F.stod d, F.stod e with
      | some rc, some zs, some rs, some zc => .ok (⟨some rc, some rs, some n⟩, ⟨some zc, some zs, some n⟩)
      | _, _, _, _ => .throws "stod"
  | _ => .status "cannot parse line"

/-- body of the loop `composed_types_lib.cc:478-502` -/
def readSurfaceLine (raw : Str) : Outcome (Coef2 × Coef2) :=
  match fields (strip raw) with
  | [a, a', b, c, d, e] =>
    match F.stoi a, F.stoi a' with
    | some n, some m =>
      match F.stod b, F.stod c, F.stod d, F.stod e with
      | some rc, some zs, some rs, some zc =>
        .ok (⟨some rc, some rs, some m, some n⟩, ⟨some zc, some zs, some m, some n⟩)
      | _, _, _, _ => .throws "stod"
    | _, _ => .throws "stoi"
  | _ => .status "cannot parse line"

/-- the loops over the lines -/
def readLines {α : Type} (f : Str → Outcome (α × α)) : List Str → Outcome (List (α × α))
  | [] => .ok []
  | l :: ls => do
    let p ← f l
    let ps ← readLines f ls
    .ok (p :: ps)

/-- `CurveRZFourierFromCsv`, `composed_types_lib.cc:240-289` -/
def curveFromCsv (text : Str) : Outcome Curve :=
  match getlines text with
  | [] => .status "cannot read header line"
  | h :: ls =>
    if h ≠ curveHeader then .status "header line not found"
    else do
      let ps ← readLines (readCurveLine F) ls
      .ok ⟨ps.map (·.1), ps.map (·.2)⟩

/-- `SurfaceRZFourierFromCsv`, `composed_types_lib.cc:460-503` -/
def surfaceFromCsv (text : Str) : Outcome Surface :=
  match getlines text with
  | [] => .status "cannot read header line"
  | h :: ls =>
    if h ≠ surfaceHeader then .status "header line not found"
    else do
      let ps ← readLines (readSurfaceLine F) ls
      .ok ⟨ps.map (·.1), ps.map (·.2)⟩

/-! ## columns -/

/-- `ModeNumbers`, `CoefficientsRCos`, `..ZSin`, `..RSin`, `..ZCos` of a curve,
    `composed_types_lib.cc:321-397`, in this order -/
def curveColumns (c : Curve) : Outcome (List Int × List ℚ × List ℚ × List ℚ × List ℚ) := do
  checkCurve c
  .ok (c.r.map (·.mode.getD 0), c.r.map (·.fcCos.getD 0), c.z.map (·.fcSin.getD 0),
    c.r.map (·.fcSin.getD 0), c.z.map (·.fcCos.getD 0))

/-- `PoloidalModeNumbers`, `ToroidalModeNumbers` and the coefficients of a surface,
    `composed_types_lib.cc:538-608` -/
def surfaceColumns (c : Surface) :
    Outcome (List Int × List Int × List ℚ × List ℚ × List ℚ × List ℚ) := do
  checkSurface c
  .ok (c.r.map (·.m.getD 0), c.r.map (·.n.getD 0), c.r.map (·.fcCos.getD 0),
    c.z.map (·.fcSin.getD 0), c.r.map (·.fcSin.getD 0), c.z.map (·.fcCos.getD 0))

end Verif.Csv
