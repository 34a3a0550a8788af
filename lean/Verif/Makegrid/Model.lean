import Verif.Coils.Model
import Verif.Common.Loop
import Mathlib.Analysis.SpecialFunctions.Trigonometric.Basic
import Mathlib.Analysis.Real.Sqrt

/-!
# Model of `common/makegrid_lib/makegrid_lib.cc` and `common/magnetic_field_provider`

Reals instead of doubles for positions and fields; currents and windings are those of `Coils` (`D`, finite ones are
rationals). The field of a carrier with a given current comes from the ABSCAB library and is a parameter, except for
the straight filament, whose formula is part of the repository. A field value is `none` if a current that enters it
is not finite, and a table entry is also `none` as long as it has not been written.
-/
namespace Verif.Makegrid
open Verif Verif.Coils

/-- Cartesian or cylindrical triple -/
abbrev V := ℝ × ℝ × ℝ

/-- `MakegridParameters`, `makegrid_lib.h` -/
structure Params where
  normalize_by_currents : Bool
  assume_stellarator_symmetry : Bool
  number_of_field_periods : Int
  r_grid_minimum : ℝ
  r_grid_maximum : ℝ
  number_of_r_grid_points : Int
  z_grid_minimum : ℝ
  z_grid_maximum : ℝ
  number_of_z_grid_points : Int
  number_of_phi_grid_points : Int

variable (par : Params)

/-- `IsValidMakegridParameters`, `makegrid_lib.cc:41-92` -/
noncomputable def isValid : Outcome Unit :=
  if par.number_of_field_periods ≤ 0 then .status "number_of_field_periods"
  else if par.r_grid_maximum ≤ par.r_grid_minimum then .status "R grid extent"
  else if par.number_of_r_grid_points < 2 then .status "number_of_r_grid_points"
  else if par.z_grid_maximum ≤ par.z_grid_minimum then .status "Z grid extent"
  else if par.number_of_z_grid_points < 2 then .status "number_of_z_grid_points"
  else if par.number_of_phi_grid_points < 1 then .status "number_of_phi_grid_points"
  else .ok ()

/-- lines 303-305 and 441 -/
noncomputable def delta_r : ℝ :=
  (par.r_grid_maximum - par.r_grid_minimum) / ((par.number_of_r_grid_points : ℝ) - 1)
noncomputable def delta_z : ℝ :=
  (par.z_grid_maximum - par.z_grid_minimum) / ((par.number_of_z_grid_points : ℝ) - 1)
noncomputable def delta_phi : ℝ :=
  2 * Real.pi / ((par.number_of_field_periods * par.number_of_phi_grid_points : Int) : ℝ)

/-- lines 335-336 -/
def linear (phi_index z_index r_index : Int) : Int :=
  (phi_index * par.number_of_z_grid_points + z_index) * par.number_of_r_grid_points + r_index

/-- one point, lines 324-340 -/
noncomputable def gridPoint (phi_index z_index r_index : Int) : V :=
  let phi := (phi_index : ℝ) * delta_phi par
  let z := par.z_grid_minimum + (z_index : ℝ) * delta_z par
  let r := par.r_grid_minimum + (r_index : ℝ) * delta_r par
  (r * Real.cos phi, r * Real.sin phi, z)

/-- planes on which the field is evaluated, lines 307-316 -/
def numPhiEffective : Outcome Int :=
  if par.assume_stellarator_symmetry then
    if par.number_of_phi_grid_points.tmod 2 ≠ 0 then .status "number of toroidal grid points has to be even"
    else .ok (par.number_of_phi_grid_points.tdiv 2 + 1)
  else .ok par.number_of_phi_grid_points

/-- `MakeCylindricalGrid`, lines 282-346: number of columns and columns -/
noncomputable def makeCylindricalGrid : Outcome (Int × (Int → V)) := do
  isValid par
  let eff ← numPhiEffective par
  .ok (eff * par.number_of_z_grid_points * par.number_of_r_grid_points,
    forRange 0 eff (fun phi_index grid =>
      forRange 0 par.number_of_z_grid_points (fun z_index grid =>
        forRange 0 par.number_of_r_grid_points (fun r_index grid =>
          upd grid (linear par phi_index z_index r_index) (gridPoint par phi_index z_index r_index)) grid) grid)
      (fun _ => (0, 0, 0)))

/-- rotation of the components, lines 376-384 and 387 -/
noncomputable def toCyl (cos_phi sin_phi : Int → ℝ) (index_phi : Int) (b : V) : V :=
  (b.1 * cos_phi index_phi + b.2.1 * sin_phi index_phi, b.2.1 * cos_phi index_phi - b.1 * sin_phi index_phi, b.2.2)

/-- the first loop, lines 374-387, on the field at the evaluation points -/
noncomputable def convert (cos_phi sin_phi : Int → ℝ) (field : Int → Option V) (neval : Int) (t : Int → Option V) :
    Int → Option V :=
  forRange 0 neval (fun linear_index t =>
    upd t linear_index ((field linear_index).map
      (toCyl cos_phi sin_phi (linear_index.tdiv (par.number_of_z_grid_points * par.number_of_r_grid_points))))) t

/-- source of a mirrored entry, lines 397-406 -/
def reversed (linear_index : Int) : Int :=
  let idx_phi := linear_index.tdiv (par.number_of_z_grid_points * par.number_of_r_grid_points)
  let idx_z_r := linear_index.tmod (par.number_of_z_grid_points * par.number_of_r_grid_points)
  let idx_z := idx_z_r.tdiv par.number_of_r_grid_points
  let idx_r := idx_z_r.tmod par.number_of_r_grid_points
  linear par (par.number_of_phi_grid_points - idx_phi) (par.number_of_z_grid_points - 1 - idx_z) idx_r

/-- lines 408-410 -/
def mirrored (b : V) : V := (-b.1, b.2.1, b.2.2)

/-- the second loop, lines 391-412 (in the vector-potential routine lines 738-762) -/
noncomputable def mirror (neval total : Int) (t : Int → Option V) : Int → Option V :=
  forRange neval total (fun linear_index t => upd t linear_index ((t (reversed par linear_index)).map mirrored)) t

/-- tables of lines 438-446 -/
noncomputable def cosPhi (index_phi : Int) : ℝ := Real.cos ((index_phi : ℝ) * delta_phi par)
noncomputable def sinPhi (index_phi : Int) : ℝ := Real.sin ((index_phi : ℝ) * delta_phi par)

/-- `CartesianToCylindricalField`, lines 350-413 -/
noncomputable def toCylindrical (field : Int → Option V) (neval total : Int) : Int → Option V :=
  let t := convert par (cosPhi par) (sinPhi par) field neval fun _ => none
  if neval < total then mirror par neval total t else t

/-! ## the field of a configuration -/

/-- `IsMagneticConfigurationFullyPopulated`, `magnetic_configuration_lib.cc:516-555`: the carriers of the model are
    complete by construction, only the number of vertices can be too small -/
def populated (cfg : Config) : Bool :=
  cfg.circuits.all fun c => c.coils.all fun k => k.carriers.all fun t =>
    match t with
    | .polygon _ vs => decide (2 ≤ vs.length)
    | _ => true

/-- field of a carrier with a given current at a point -/
abbrev Library := Carrier → ℚ → V → V

variable (lib : Library)

/-- adding one contribution to a cell of `m_magnetic_field` -/
noncomputable def addTerm (p : V) (acc : Option V) (s : Carrier × D) : Option V :=
  match acc, s.2 with
  | some a, .fin i => some (a + lib s.1 i p)
  | _, _ => none

/-- `MagneticField(config, ...)`, `magnetic_field_provider_lib.cc:268-334`, on a cell that starts at zero; the
    contributions of the carriers are added one after the other -/
noncomputable def fieldAt (cfg : Config) (p : V) : Option V :=
  (sources cfg).foldl (addTerm lib p) (some 0)

/-- `SetCircuitCurrents`, `magnetic_configuration_lib.cc:231-254` -/
def setCircuitCurrents (currents : List D) (cfg : Config) : Outcome Config :=
  if cfg.circuits.length ≠ currents.length then .status "number of circuit currents"
  else .ok { cfg with circuits := List.zipWith (fun c i => { c with current := some i }) cfg.circuits currents }

/-- `GetCircuitCurrents`, `magnetic_configuration_lib.cc:213-229` -/
def getCircuitCurrents (cfg : Config) : Outcome (List D) :=
  if populated cfg then .ok (cfg.circuits.map Circuit.cur) else .status "not fully populated"

/-- currents for one row, `makegrid_lib.cc:503-509` -/
def currentsFor (original : List D) (circuit_index : Nat) : List D :=
  (List.replicate original.length (.fin 0)).set circuit_index
    (if par.normalize_by_currents then .fin 1 else original.getD circuit_index (.fin 0))

/-- one row of the table, lines 497-563. The magnetic field function checks the configuration again. -/
noncomputable def row (grid : Int → V) (neval : Int) (cfg : Config) (original : List D) (circuit_index : Nat) :
    Outcome (Int → Option V) := do
  let c ← setCircuitCurrents (currentsFor par original circuit_index) cfg
  if populated c then
    .ok (toCylindrical par (fun i => fieldAt lib c (grid i)) neval
      (par.number_of_phi_grid_points * par.number_of_z_grid_points * par.number_of_r_grid_points))
  else .status "not fully populated"

/-- the configuration whose circuits are tabulated, lines 448-463 -/
def effective (cfg : Config) : Outcome Config :=
  if par.normalize_by_currents then numWindingsToCircuitCurrents cfg else .ok cfg

/-- `ComputeMagneticFieldResponseTable`, lines 415-573. The statuses of the rows are collected and the first failing
    one is returned, which is what `mapM` does (rows have no other effect). `ComputeVectorPotentialCache`, lines
    575-776, is the same with the vector potential of the carriers. -/
noncomputable def responseTable (cfg : Config) : Outcome (List (Int → Option V)) := do
  let (neval, grid) ← makeCylindricalGrid par
  let cfg ← effective par cfg
  let original ← getCircuitCurrents cfg
  (List.range cfg.circuits.length).mapM fun i => row par lib grid neval cfg original i

/-! ## the straight filament -/

/-- three-dimensional `std::hypot` -/
noncomputable def hypot (a : V) : ℝ := Real.sqrt (a.1 ^ 2 + a.2.1 ^ 2 + a.2.2 ^ 2)

/-- `MagneticField(InfiniteStraightFilament, ...)`, `magnetic_field_provider_lib.cc:41-145`, at one point;
    `mu0` is `abscab::MU_0` -/
noncomputable def straightField (mu0 : ℝ) (origin direction : V) (current : ℝ) (p : V) : Outcome V :=
  if current = 0 then .ok 0
  else
    let scale := mu0 * current / (2 * Real.pi)
    let len := hypot direction
    if ¬ 0 < len then .abort "direction_length"
    else
      let nx := direction.1 / len
      let ny := direction.2.1 / len
      let nz := direction.2.2 / len
      let dx := origin.1 - p.1
      let dy := origin.2.1 - p.2.1
      let dz := origin.2.2 - p.2.2
      let par := dx * nx + dy * ny + dz * nz
      let px := dx - nx * par
      let py := dy - ny * par
      let pz := dz - nz * par
      let radius := hypot (px, py, pz)
      if ¬ 0 < radius then .abort "evaluation_position_radius"
      else
        let strength := scale / radius
        let rx := px / radius
        let ry := py / radius
        let rz := pz / radius
        .ok ((ry * nz - rz * ny) * strength, (rz * nx - rx * nz) * strength, (rx * ny - ry * nx) * strength)

end Verif.Makegrid
