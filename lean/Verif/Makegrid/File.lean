import Verif.Makegrid.Model
import Verif.Mgrid.Model
import Mathlib.Data.Real.Archimedean

/-!
# Model of writing an mgrid file and of reading its variables

`common/makegrid_lib/makegrid_lib.cc`: `WriteMakegridNetCDFFile` 778-1045; `util/netcdf_io/netcdf_io.cc`: `NetcdfReadInt`, `NetcdfReadDouble`, `NetcdfReadString`, `NetcdfReadArray3D`;
`free_boundary/mgrid_provider/mgrid_provider.cc`: the reads of `LoadFile`; `makegrid/makegrid/makegrid.cc`: `main`.

* The NetCDF library is modelled by its documented behaviour.  The identifier of a variable is its name.  A dimension of length 0 is the unlimited one; files with it are not modelled.
* `nc_put_var` takes as many elements as the variable has from memory; `Mem` is the memory from a pointer to the end of its array.
* Numbers are exact.
-/
namespace Verif.Makegrid
open Verif Verif.Coils Verif.Mgrid

/-- types of variables -/
inductive NcType where
  | int
  | double
  | float
  | char
deriving DecidableEq

/-- a value in a file or in memory -/
inductive Cell where
  | i (n : Int)
  | d (x : ℝ)
  | c (x : Char)

/-- a variable: type, names of its dimensions, contents in the order of C -/
structure Var where
  ty : NcType
  dims : List String
  data : Int → Cell

/-- a file -/
structure Nc where
  dims : String → Option Int
  vars : String → Option Var

/-- memory behind a pointer -/
structure Mem where
  ty : NcType
  size : Int
  val : Int → Cell

/-- number of elements of a variable -/
def Nc.count (f : Nc) (dims : List String) : Int := (dims.map fun d => (f.dims d).getD 0).prod

/-! ## writing -/

/-- `nc_def_dim`; failure ends the process (`CHECK_EQ`) -/
def defDim (f : Nc) (name : String) (len : Int) : Outcome Nc :=
  if len < 0 then .abort "nc_def_dim"
  else if len = 0 then .status "not modelled"
  else if (f.dims name).isSome then .abort "nc_def_dim"
  else .ok { f with dims := fun n => if n = name then some len else f.dims n }

/-- `nc_def_var` -/
def defVar (f : Nc) (name : String) (ty : NcType) (dims : List String) : Outcome Nc :=
  if (f.vars name).isSome ∨ ∃ d ∈ dims, f.dims d = none then .abort "nc_def_var"
  else .ok { f with vars := fun n => if n = name then some ⟨ty, dims, fun _ => .i 0⟩ else f.vars n }

/-- `nc_put_var`: reads beyond the array are undefined behaviour, as are bytes of another type -/
def putVar (f : Nc) (name : String) (m : Mem) : Outcome Nc :=
  match f.vars name with
  | none => .abort "nc_put_var"
  | some v =>
    if v.ty ≠ m.ty then .ub "type"
    else if m.size < f.count v.dims then .ub "read beyond the array"
    else .ok { f with vars := fun n => if n = name then some { v with data := m.val } else f.vars n }

/-- the calls one after the other -/
def defDims : List (String × Int) → Nc → Outcome Nc
  | [], f => .ok f
  | (n, l) :: r, f => (defDim f n l).bind (defDims r)
def defVars : List (String × NcType × List String) → Nc → Outcome Nc
  | [], f => .ok f
  | (n, t, d) :: r, f => (defVar f n t d).bind (defVars r)
def putVars : List (String × Mem) → Nc → Outcome Nc
  | [], f => .ok f
  | (n, m) :: r, f => (putVar f n m).bind (putVars r)

/-- `%03d` of a number that is not negative -/
def pad3 (k : ℕ) : String := String.ofList (List.replicate (3 - (Nat.toDigits 10 k).length) '0' ++ Nat.toDigits 10 k)

/-- name of a variable with a table, `makegrid_lib.cc:903-943`, `mgrid_provider.cc:188-198` -/
def tableName (prefix_ : String) (circuit_index : Int) : String := prefix_ ++ "_" ++ pad3 (circuit_index + 1).toNat
/-- the components of the magnetic field -/
def bName : Comp → String
  | .r => "br"
  | .p => "bp"
  | .z => "bz"
/-- and of the vector potential -/
def aName : Comp → String
  | .r => "ar"
  | .p => "ap"
  | .z => "az"

/-- one number in memory -/
def memInt (n : Int) : Mem := ⟨.int, 1, fun _ => .i n⟩
def memDouble (x : ℝ) : Mem := ⟨.double, 1, fun _ => .d x⟩
def memChar (x : Char) : Mem := ⟨.char, 1, fun _ => .c x⟩
/-- a string with its final zero -/
def memString (l : List Char) : Mem := ⟨.char, l.length + 1, fun k => .c (l.getD k.toNat '\x00')⟩
/-- `circuit_currents.data()` -/
def memVec (v : Vec ℝ) : Mem := ⟨.double, v.size, fun k => .d (v.val k)⟩
/-- `row(i).data()` of a matrix with contiguous rows: up to the end of the last row -/
def memRow (m : Mat ℝ) (i : Int) : Mem := ⟨.double, (m.rows - i) * m.cols, fun k => .d (m.val (i + k.tdiv m.cols) (k.tmod m.cols))⟩

/-- `absl::StrFormat("%-30s", absl::StrFormat("circuit_%d", circuit_index))`, 990-1003 -/
def groupName (circuit_index : Int) : List Char :=
  let s := "circuit_".toList ++ Nat.toDigits 10 circuit_index.toNat
  s ++ List.replicate (30 - s.length) ' '

/-- dimensions, 802-835 -/
def fileDims (par : Params) (n : Int) : List (String × Int) :=
  [("stringsize", 30), ("external_coil_groups", n), ("dim_00001", 1), ("external_coils", n), ("rad", par.number_of_r_grid_points), ("zee", par.number_of_z_grid_points),
    ("phi", par.number_of_phi_grid_points)]

/-- variables that do not depend on the number of circuits, 837-891 -/
def headVars : List (String × NcType × List String) :=
  [("ir", .int, []), ("jz", .int, []), ("kp", .int, []), ("nfp", .int, []), ("nextcur", .int, []), ("rmin", .double, []), ("rmax", .double, []), ("zmin", .double, []), ("zmax", .double, []),
    ("coil_group", .char, ["external_coil_groups", "stringsize"]), ("mgrid_mode", .char, ["dim_00001"]), ("raw_coil_cur", .double, ["external_coils"])]

/-- variables of one circuit, 898-946 -/
def circuitVars (hasA : Bool) (i : Int) : List (String × NcType × List String) :=
  let grid := ["phi", "zee", "rad"]
  [(tableName "br" i, .double, grid), (tableName "bp" i, .double, grid), (tableName "bz" i, .double, grid)] ++
    if hasA then [(tableName "ar" i, .double, grid), (tableName "ap" i, .double, grid), (tableName "az" i, .double, grid)] else []

/-- contents of the head, 951-1016 -/
def headPuts (par : Params) (n : Int) (circuit_currents : Vec ℝ) : List (String × Mem) :=
  [("ir", memInt par.number_of_r_grid_points), ("jz", memInt par.number_of_z_grid_points), ("kp", memInt par.number_of_phi_grid_points), ("nfp", memInt par.number_of_field_periods),
    ("nextcur", memInt n), ("rmin", memDouble par.r_grid_minimum), ("rmax", memDouble par.r_grid_maximum), ("zmin", memDouble par.z_grid_minimum), ("zmax", memDouble par.z_grid_maximum),
    ("coil_group", memString ((irange 0 n).flatMap groupName)), ("mgrid_mode", memChar (if par.normalize_by_currents then 'S' else 'R')), ("raw_coil_cur", memVec circuit_currents)]

/-- contents of one circuit, 1018-1040 -/
def circuitPuts (b : Comp → Mat ℝ) (a : Option (Comp → Mat ℝ)) (i : Int) : List (String × Mem) :=
  [(tableName "br" i, memRow (b .r) i), (tableName "bp" i, memRow (b .p) i), (tableName "bz" i, memRow (b .z) i)] ++
    match a with
    | some a => [(tableName "ar" i, memRow (a .r) i), (tableName "ap" i, memRow (a .p) i), (tableName "az" i, memRow (a .z) i)]
    | none => []

/-- an empty file -/
def emptyNc : Nc := ⟨fun _ => none, fun _ => none⟩

/-- `WriteMakegridNetCDFFile`, 778-1045; the parameters are an argument of their own, those of the tables are not used -/
def writeFile (par : Params) (circuit_currents : Vec ℝ) (b : Comp → Mat ℝ) (a : Option (Comp → Mat ℝ)) : Outcome Nc :=
  let n := (b .r).rows
  if n ≤ 0 then .abort "No magnetic field cache present to be written."
  else if circuit_currents.size ≠ n then .abort "number of provided circuit currents"
  else
    (defDims (fileDims par n) emptyNc).bind fun f =>
      (defVars (headVars ++ (irange 0 n).flatMap (circuitVars a.isSome)) f).bind fun f =>
        putVars (headPuts par n circuit_currents ++ (irange 0 n).flatMap (circuitPuts b a)) f

/-! ## reading -/

/-- `NetcdfReadInt`, 133-155: numbers of other types are converted by the library, which is not modelled -/
def readInt (f : Nc) (name : String) : Outcome Int :=
  match f.vars name with
  | none => .status "not found"
  | some v =>
    if v.dims.length ≠ 0 then .status "Not a rank-0 array"
    else match v.ty, v.data 0 with
      | .int, .i n => .ok n
      | .char, _ => .status "could not read variable"
      | _, _ => .status "not modelled"

/-- `NetcdfReadDouble`, 157-180 -/
def readDouble (f : Nc) (name : String) : Outcome ℝ :=
  match f.vars name with
  | none => .status "not found"
  | some v =>
    if v.dims.length ≠ 0 then .status "Not a rank-0 array"
    else match v.ty, v.data 0 with
      | .double, .d x => .ok x
      | .float, .d x => .ok x
      | .int, .i n => .ok n
      | _, _ => .status "could not read variable"

/-- the character of a cell -/
def charOf (x : Cell) : Char := match x with | .c x => x | _ => '\x00'

/-- `NetcdfReadString`, 182-222: the buffer has one byte for each element, but `nc_get_vara` stores the elements with their size in the file -/
def readString (f : Nc) (name : String) : Outcome String :=
  match f.vars name with
  | none => .status "not found"
  | some v =>
    match v.dims with
    | [d] =>
      let n := (f.dims d).getD 0
      if v.ty = .char then
        .ok (String.ofList (strip (((irange 0 n).map fun k => charOf (v.data k)).takeWhile (· ≠ '\x00'))))
      else if n ≤ 0 then .ok "" else .ub "write beyond the buffer"
    | _ => .status "Not a rank-1 array"

/-- the double of a cell -/
def doubleOf (x : Cell) : ℝ := match x with | .d x => x | _ => 0

/-- `NetcdfReadArray3D`, 304-351: `nc_get_vara` does not convert; bytes of another type give the numbers `junk` -/
def readArray3 (junk : NcType → Int → ℝ) (f : Nc) (name : String) : Option (Arr3 ℝ) :=
  match f.vars name with
  | none => none
  | some v =>
    match v.dims with
    | [d0, d1, d2] =>
      let n1 := (f.dims d1).getD 0
      let n2 := (f.dims d2).getD 0
      some { n0 := (f.dims d0).getD 0
             n1 := fun _ => n1
             n2 := fun _ _ => n2
             val := fun i j k => if v.ty = .double then doubleOf (v.data ((i * n1 + j) * n2 + k)) else junk v.ty ((i * n1 + j) * n2 + k) }
    | _ => none

/-- the value of a read that succeeded -/
def got {α : Type} (x : Outcome α) : Option α := match x with | .ok a => some a | _ => none

/-- the reads of the head, `mgrid_provider.cc:117-146`: all are made, the first failure is returned -/
def readHeader (f : Nc) : Outcome (Option (Header ℝ)) :=
  match readString f "mgrid_mode" with
  | .ub w => .ub w
  | mode =>
    .ok do
      let nfp ← got (readInt f "nfp")
      let ir ← got (readInt f "ir")
      let rmin ← got (readDouble f "rmin")
      let rmax ← got (readDouble f "rmax")
      let jz ← got (readInt f "jz")
      let zmin ← got (readDouble f "zmin")
      let zmax ← got (readDouble f "zmax")
      let kp ← got (readInt f "kp")
      let nextcur ← got (readInt f "nextcur")
      let mode ← got mode
      some { nfp := nfp, ir := ir, rmin := rmin, rmax := rmax, jz := jz, zmin := zmin, zmax := zmax, kp := kp, nextcur := nextcur, mode := mode }

/-- what `LoadFile` gets from a file on disk -/
def asFile (junk : NcType → Int → ℝ) (f : Nc) : Outcome (File ℝ) :=
  (readHeader f).bind fun h =>
    .ok { isThere := true, readable := true, opens := true, header := h, field := fun i c => readArray3 junk f (tableName (bName c) i), closes := true }

/-! ## the program -/

/-- `circuit_currents` in `main`, `makegrid.cc:57-60`: the currents of the configuration as it was read -/
def mainCurrents (cfg : Config) : Outcome (List D) := getCircuitCurrents cfg

end Verif.Makegrid
