import Verif.Makegrid.Model

/-!
# What a response table should contain
-/
namespace Verif.Makegrid
open Verif Verif.Coils

/-- the point with cylindrical coordinates `R`, `φ`, `Z` -/
noncomputable def point (R φ Z : ℝ) : V := (R * Real.cos φ, R * Real.sin φ, Z)

/-- components along the cylindrical unit vectors at angle `φ` -/
noncomputable def cyl (φ : ℝ) (b : V) : V :=
  (b.1 * Real.cos φ + b.2.1 * Real.sin φ, -(b.1 * Real.sin φ) + b.2.1 * Real.cos φ, b.2.2)

variable (par : Params)

/-- coordinates of the grid: both ends included in R and Z, one field period without its end in φ -/
noncomputable def gridR (ir : Int) : ℝ :=
  par.r_grid_minimum + (par.r_grid_maximum - par.r_grid_minimum) * (ir / ((par.number_of_r_grid_points : ℝ) - 1))
noncomputable def gridZ (iz : Int) : ℝ :=
  par.z_grid_minimum + (par.z_grid_maximum - par.z_grid_minimum) * (iz / ((par.number_of_z_grid_points : ℝ) - 1))
noncomputable def gridPhi (ip : Int) : ℝ :=
  2 * Real.pi / par.number_of_field_periods * (ip / (par.number_of_phi_grid_points : ℝ))

/-- index of a grid point in the file: R fastest, then Z, then φ -/
def flat (ip iz ir : Int) : Int :=
  ip * (par.number_of_z_grid_points * par.number_of_r_grid_points) + (iz * par.number_of_r_grid_points + ir)

/-- a grid point -/
structure OnGrid (ip iz ir : Int) : Prop where
  p0 : 0 ≤ ip
  p1 : ip < par.number_of_phi_grid_points
  z0 : 0 ≤ iz
  z1 : iz < par.number_of_z_grid_points
  r0 : 0 ≤ ir
  r1 : ir < par.number_of_r_grid_points

/-- cylindrical components of a field at a point -/
noncomputable def comps (F : V → V) (R φ Z : ℝ) : V := cyl φ (F (point R φ Z))

/-- the field has `nfp` periods and is stellarator symmetric -/
structure Symmetric (nfp : Int) (F : V → V) : Prop where
  periodic : ∀ R φ Z, comps F R (φ + 2 * Real.pi / nfp) Z = comps F R φ Z
  mirror : ∀ R φ Z, comps F R (-φ) (-Z) = (-(comps F R φ Z).1, (comps F R φ Z).2.1, (comps F R φ Z).2.2)

/-- windings as the header of the configuration class describes them: one if not set -/
def wind (k : Coil) : ℚ :=
  match k.windings with
  | none => 1
  | some (.fin w) => w
  | some _ => 0

/-- field of a circuit per unit of circuit current -/
noncomputable def circuitField (lib : Library) (c : Circuit) (p : V) : V :=
  (c.coils.map fun k => (wind k : ℝ) • ((k.carriers.filter fun t => t ≠ .notSet).map fun t => lib t 1 p).sum).sum

/-- the field of a carrier is proportional to its current -/
def Linear (lib : Library) : Prop := ∀ t i p, lib t i p = (i : ℝ) • lib t 1 p

/-- current as a number -/
def amps (c : Circuit) : ℚ :=
  match c.current with
  | some (.fin i) => i
  | _ => 0

/-- current and windings are finite numbers (or windings are not set) -/
structure Finite (c : Circuit) : Prop where
  current : c.current = some (.fin (amps c))
  windings : ∀ k ∈ c.coils, k.windings = none ∨ k.windings = some (.fin (wind k))

/-- windings of the first coil -/
def firstWind (c : Circuit) : ℚ := (c.coils.head?.map wind).getD 1

/-- field of the whole configuration -/
noncomputable def totalField (lib : Library) (cfg : Config) (p : V) : V :=
  (cfg.circuits.map fun c => (amps c : ℝ) • circuitField lib c p).sum

/-- vector product -/
def cross (a b : V) : V := (a.2.1 * b.2.2 - a.2.2 * b.2.1, a.2.2 * b.1 - a.1 * b.2.2, a.1 * b.2.1 - a.2.1 * b.1)

end Verif.Makegrid
