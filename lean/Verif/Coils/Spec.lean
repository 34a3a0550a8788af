import Verif.Coils.Model

/-!
# What a coils file means

A filament block is a sequence of filaments. A filament is written as one row per point; the last row also carries
the circuit number and the name. `print` writes filaments as rows; reading is correct if it inverts `print`.
-/
namespace Verif.Coils
open Verif

/-- a filament of the file -/
structure Filament where
  id : Int
  name : Str
  init : List Point
  final : Point
  deriving DecidableEq

def Filament.points (f : Filament) : List Point := f.init ++ [f.final]

/-- a row of the file -/
inductive Row where
  | point (p : Point)
  | last (p : Point) (id : Int) (name : Str)

/-- rows of one filament -/
def Filament.rows (f : Filament) : List Row := f.init.map .point ++ [.last f.final f.id f.name]

/-- rows of a list of filaments -/
def print (fs : List Filament) : List Row := fs.flatMap Filament.rows

/-- all points but the last carry the same number of windings -/
def Filament.Uniform (f : Filament) : Prop :=
  ∀ p0, f.init.head? = some p0 → ∀ p ∈ f.init.tail, p.w ≠ .nan ∧ p.w = p0.w

/-- number of windings: that of the first point -/
def Filament.windings (f : Filament) : D := (f.init.head?.getD f.final).w

/-- the coil that a filament stands for: a circle around the z axis if there is only one point, a polygon otherwise -/
def Filament.coil (f : Filament) : Coil where
  windings := some f.windings
  carriers := [if f.init = [] then .circular f.name f.final.x (.fin 0, .fin 0, f.final.z) (.fin 0, .fin 0, .fin 1)
    else .polygon f.name (f.points.map fun p => (p.x, p.y, p.z))]

/-- circuit numbers in order of first appearance -/
def circuitIds (fs : List Filament) : List Int := (fs.map Filament.id).eraseDups

/-- the circuits: one per number, in order of first appearance, each with its filaments in the order of the file -/
def group (fs : List Filament) : List Circuit :=
  (circuitIds fs).map fun i =>
    { current := some (.fin 1), coils := (fs.filter fun f => f.id = i).map Filament.coil }

variable (v : Conv)

/-- a row written on a line: four columns, or six for the last row of a filament -/
inductive Written : Str → Row → Prop
  | four {line a b c d x y z w} : parts line = [a, b, c, d] → v.stod a = some x → v.stod b = some y →
      v.stod c = some z → v.stod d = some w → Written line (.point ⟨x, y, z, w⟩)
  | six {line a b c d i n x y z w id} : parts line = [a, b, c, d, i, n] → v.stod a = some x → v.stod b = some y →
      v.stod c = some z → v.stod d = some w → v.stoi i = some id → Written line (.last ⟨x, y, z, w⟩ id n)

/-- the lines of a block are rows, mixed with lines that switch mirroring off -/
inductive Body : List Str → List Row → Prop
  | nil : Body [] []
  | mirror {raw ls rs} : isMirror (strip raw) = true → mirrorOff (strip raw) = true → Body ls rs → Body (raw :: ls) rs
  | row {raw ls r rs} : isMirror (strip raw) = false → isEnd (strip raw) = false → Written v (strip raw) r →
      Body ls rs → Body (raw :: ls) (r :: rs)

end Verif.Coils
