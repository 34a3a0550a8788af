import Verif.Common.Ext
import Verif.Common.Outcome

/-!
# Model of `common/magnetic_configuration_lib/magnetic_configuration_lib.cc`

Coils-file import (lines 34-211) and the winding normalisation (lines 256-289), on the classes of
`common/magnetic_configuration_definition/magnetic_configuration.h`. Text is a list of characters; `std::stod` and
`std::stoi` are parameters (`none`: they throw). Numbers are extended doubles `D` without rounding.
-/
namespace Verif.Coils
open Verif

/-- `a / b`; a finite zero counts as positive (the two zeros are identified in `D`) -/
def div : D → D → D
  | .nan, _ => .nan
  | _, .nan => .nan
  | .fin a, .fin b => if b = 0 then (if a = 0 then .nan else if 0 < a then .pinf else .ninf) else .fin (a / b)
  | .fin _, _ => .fin 0
  | .pinf, .fin b => if b < 0 then .ninf else .pinf
  | .ninf, .fin b => if b < 0 then .pinf else .ninf
  | _, _ => .nan

/-- `a != b` -/
def ne : D → D → Bool
  | .nan, _ => true
  | _, .nan => true
  | a, b => decide (a ≠ b)

/-! ## data, `magnetic_configuration.h` -/

abbrev Str := List Char

/-- `CurrentCarrier` with its type case; `FourierFilament` is never created by the code modelled here -/
inductive Carrier where
  | notSet
  | straight (origin direction : D × D × D)
  | circular (name : Str) (radius : D) (center normal : D × D × D)
  | polygon (name : Str) (vertices : List (D × D × D))
  deriving DecidableEq

/-- `Coil`, lines 430-508: `none` = `has_num_windings()` is false -/
structure Coil where
  windings : Option D
  carriers : List Carrier
  deriving DecidableEq

/-- `num_windings()`, line 461: 0 when not populated -/
def Coil.num_windings (c : Coil) : D := c.windings.getD (.fin 0)

/-- `SerialCircuit` -/
structure Circuit where
  current : Option D
  coils : List Coil
  deriving DecidableEq

/-- `current()`: 0 when not populated -/
def Circuit.cur (c : Circuit) : D := c.current.getD (.fin 0)

/-- `MagneticConfiguration` -/
structure Config where
  num_field_periods : Option Int
  circuits : List Circuit
  deriving DecidableEq

/-! ## text -/

/-- `absl::ascii_isspace` -/
def isSpace (c : Char) : Bool := c = ' ' || c = '\t' || c = '\n' || c = '\x0b' || c = '\x0c' || c = '\r'

/-- `absl::StripAsciiWhitespace` -/
def strip (s : Str) : Str := ((s.dropWhile isSpace).reverse.dropWhile isSpace).reverse

/-- pieces between blanks and tabs -/
def splitBlank : Str → List Str
  | [] => [[]]
  | c :: s =>
    if c = ' ' || c = '\t' then [] :: splitBlank s
    else match splitBlank s with
      | [] => [[c]]
      | p :: ps => (c :: p) :: ps

/-- `absl::StrSplit(s, absl::ByAnyChar(" \t"), absl::SkipWhitespace())` -/
def parts (s : Str) : List Str := (splitBlank s).filter fun p => !p.all isSpace

/-- `absl::StartsWith(s, p)` -/
def startsWith (s p : Str) : Bool := p.isPrefixOf s

/-- `absl::EndsWithIgnoreCase(s, p)` for an upper-case `p` -/
def endsWithIgnoreCase (s p : Str) : Bool := p.isSuffixOf (s.map Char.toUpper)

/-- pieces between line feeds -/
def splitNl : Str → List Str
  | [] => [[]]
  | c :: s =>
    if c = '\n' then [] :: splitNl s
    else match splitNl s with
      | [] => [[c]]
      | p :: ps => (c :: p) :: ps

/-- the lines delivered by repeated `std::getline`: nothing after a final line feed -/
def getlines (s : Str) : List Str :=
  let ls := splitNl s
  if ls.getLast? = some [] then ls.dropLast else ls

/-! ## import -/

/-- `std::stod` and `std::stoi` -/
structure Conv where
  stod : Str → Option D
  stoi : Str → Option Int

/-- one entry of the vectors `x`, `y`, `z`, `w` -/
structure Point where
  x : D
  y : D
  z : D
  w : D
  deriving DecidableEq

/-- local variables of `ParseCurrentCarriers` (lines 40-45) and the configuration -/
structure St where
  coil_ids : List Int
  pts : List Point
  cfg : Config
  deriving DecidableEq

variable (v : Conv)

/-- the carrier at lines 99-143: one point makes a circle, more make a polygon; `none`: windings differ (lines
    123-131: entries `1 .. size-2` against the first) -/
def carrier (name : Str) (pts : List Point) (p0 : Point) : Option Carrier :=
  if pts.length = 1 then some (.circular name p0.x (.fin 0, .fin 0, p0.z) (.fin 0, .fin 0, .fin 1))
  else if (pts.drop 1).dropLast.any (fun p => ne p.w p0.w) then none
  else some (.polygon name (pts.map fun p => (p.x, p.y, p.z)))

/-- `std::find` in `coil_ids`, lines 81-89; the position is used as index into the circuits -/
def St.find (st : St) (id : Int) : Option Nat := st.coil_ids.findIdx? (fun i => i == id)

/-- lines 74-149: the last line of a filament (its point has been appended to `pts`) -/
def St.finish (st : St) (id : Int) (name : Str) : Outcome St :=
  match st.pts with
  | [] => .throws "vector::at"
  | p0 :: _ =>
    match carrier name st.pts p0 with
    | none => .status "number of windings different"
    | some c =>
      let coil : Coil := { windings := some p0.w, carriers := [c] }
      match st.find id with
      | some i =>
        if i < st.cfg.circuits.length then
          .ok { st with
            pts := []
            cfg := { st.cfg with circuits := st.cfg.circuits.modify i fun sc => { sc with coils := sc.coils ++ [coil] } } }
        else .ub "mutable_serial_circuits"
      | none =>
        .ok { coil_ids := st.coil_ids ++ [id]
              pts := []
              cfg := { st.cfg with circuits := st.cfg.circuits ++ [{ current := some (.fin 1), coils := [coil] }] } }

/-- the first four columns, lines 68-72 -/
def point (ps : List Str) : Outcome Point :=
  match ps with
  | a :: b :: c :: d :: _ =>
    match v.stod a, v.stod b, v.stod c, v.stod d with
    | some x, some y, some z, some w => .ok { x := x, y := y, z := z, w := w }
    | _, _, _, _ => .throws "stod"
  | _ => .ub "line_parts"

/-- one data line, lines 61-155 -/
def dataLine (line : Str) (st : St) : Outcome St :=
  let ps := parts line
  if ps.length = 4 ∨ ps.length = 6 then do
    let p ← point v ps
    let st : St := { st with pts := st.pts ++ [p] }
    if ps.length = 6 then
      match ps with
      | [_, _, _, _, i, name] =>
        match v.stoi i with
        | some id => st.finish id name
        | none => .throws "stoi"
      | _ => .ub "line_parts"
    else .ok st
  else .status "cannot parse line"

/-- `mirror` line, lines 49-59 -/
def isMirror (line : Str) : Bool := startsWith line "mirror".toList
def mirrorOff (line : Str) : Bool := endsWithIgnoreCase line "NIL".toList || endsWithIgnoreCase line "NUL".toList
/-- lines 60-62 -/
def isEnd (line : Str) : Bool := startsWith line "end".toList

/-- `ParseCurrentCarriers`, lines 36-164: returns the configuration and the lines that are left in the stream -/
def parse : List Str → St → Outcome (Config × List Str)
  | [], _ => .status "did not find 'end' line"
  | raw :: rest, st =>
    let line := strip raw
    if isMirror line then
      if mirrorOff line then parse rest st else .status "mirror"
    else if isEnd line then .ok (st.cfg, rest)
    else
      match dataLine v line st with
      | .ok st' => parse rest st'
      | .status m => .status m
      | .abort m => .abort m
      | .throws m => .throws m
      | .ub m => .ub m

/-- the loop of `ImportMagneticConfigurationFromMakegrid`, lines 166-202, with a bound on the number of lines left -/
def importLoop : Nat → List Str → Config → Outcome Config
  | 0, _, cfg => .ok cfg
  | _ + 1, [], cfg => .ok cfg
  | k + 1, raw :: rest, cfg =>
    let line := strip raw
    if startsWith line "periods".toList then
      match parts line with
      | [_, n] =>
        match v.stoi n with
        | some n => importLoop k rest { cfg with num_field_periods := some n }
        | none => .throws "stoi"
      | _ => .status "expected number of field periods"
    else if startsWith line "begin filament".toList then do
      let (cfg, rest) ← parse v rest { coil_ids := [], pts := [], cfg := cfg }
      importLoop k rest cfg
    else importLoop k rest cfg

/-- `ImportMagneticConfigurationFromMakegrid`; every pass consumes a line -/
def importMakegrid (text : Str) : Outcome Config :=
  importLoop v (getlines text).length (getlines text) { num_field_periods := none, circuits := [] }

/-! ## windings -/

/-- one circuit, lines 261-285 -/
def migrate (c : Circuit) : Outcome Circuit :=
  match c.coils with
  | [] => .ub "coils(0)"
  | c0 :: _ =>
    let ref := c0.num_windings
    .ok { current := some (D.mul c.cur ref)
          coils := c.coils.map fun k => { k with windings := some (div k.num_windings ref) } }

/-- `NumWindingsToCircuitCurrents`, lines 256-289 -/
def numWindingsToCircuitCurrents (cfg : Config) : Outcome Config := do
  let cs ← cfg.circuits.mapM migrate
  .ok { cfg with circuits := cs }

/-! ## who uses the windings -/

/-- `serial_circuit.current() == 0.0` -/
def isZero : D → Bool
  | .fin a => decide (a = 0)
  | _ => false

/-- the current put into a coil by `MagneticField`, `magnetic_field_provider_lib.cc:294-300` -/
def coilCurrent (current : D) (k : Coil) : D :=
  match k.windings with
  | some w => D.mul current w
  | none => current

/-- the (carrier, current) pairs whose fields `MagneticField` and `VectorPotential` add up, in this order,
    `magnetic_field_provider_lib.cc:283-331`: circuits without current are skipped, unset carriers ignored -/
def sources (cfg : Config) : List (Carrier × D) :=
  cfg.circuits.flatMap fun c =>
    match c.current with
    | none => []
    | some cur =>
      if isZero cur then []
      else c.coils.flatMap fun k =>
        (k.carriers.filter fun t => t ≠ .notSet).map fun t => (t, coilCurrent cur k)

end Verif.Coils
