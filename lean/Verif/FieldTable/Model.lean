import Verif.Indata.Model
import Verif.Common.Outcome
import Verif.Common.Ext

/-! # Model of the Python classes for external fields and of the import of Makegrid parameters

`src/vmecpp/_free_boundary.py`, `common/makegrid_lib/makegrid_lib.cc`, `vmec/pybind11/pybind_vmec.cc`.  Doubles are extended doubles.  A JSON document is
the value `nlohmann::json::parse` returns, `none` if it throws. -/
namespace Verif.FieldTable
open Verif Indata

/-- `MakegridParameters`, `makegrid_lib.h:23-58`, and its Python mirror, `_free_boundary.py:16-45` (there the integers are unbounded) -/
structure Params where
  normalize_by_currents : Bool
  assume_stellarator_symmetry : Bool
  number_of_field_periods : Int
  r_grid_minimum : D
  r_grid_maximum : D
  number_of_r_grid_points : Int
  z_grid_minimum : D
  z_grid_maximum : D
  number_of_z_grid_points : Int
  number_of_phi_grid_points : Int
  deriving DecidableEq

/-! ## Import from JSON -/

/-- `IsValidMakegridParameters`, `makegrid_lib.cc:41-92` -/
def isValid (p : Params) : Outcome Unit :=
  if p.number_of_field_periods ≤ 0 then .status "number_of_field_periods"
  else if D.le p.r_grid_maximum p.r_grid_minimum then .status "R grid extent"
  else if p.number_of_r_grid_points < 2 then .status "number_of_r_grid_points"
  else if D.le p.z_grid_maximum p.z_grid_minimum then .status "Z grid extent"
  else if p.number_of_z_grid_points < 2 then .status "number_of_z_grid_points"
  else if p.number_of_phi_grid_points < 1 then .status "number_of_phi_grid_points"
  else .ok ()

/-- one entry: the status of the reader, or "must be specified", or the value; e.g. `makegrid_lib.cc:100-114` -/
def required {α : Type} (r : Outcome (Option α)) : Outcome α :=
  match r with
  | .ok (some v) => .ok v
  | .ok none => .status "must be specified"
  | .status m => .status m
  | .abort m => .abort m
  | .throws m => .throws m
  | .ub m => .ub m

/-- `ImportMakegridParametersFromJson` for an object, `makegrid_lib.cc:98-270` -/
def importObj (j : Obj) : Outcome Params := do
  let normalize_by_currents ← required (readBool j "normalize_by_currents")
  let assume_stellarator_symmetry ← required (readBool j "assume_stellarator_symmetry")
  let number_of_field_periods ← required (readInt j "number_of_field_periods")
  let r_grid_minimum ← required (readDouble j "r_grid_minimum")
  let r_grid_maximum ← required (readDouble j "r_grid_maximum")
  let number_of_r_grid_points ← required (readInt j "number_of_r_grid_points")
  let z_grid_minimum ← required (readDouble j "z_grid_minimum")
  let z_grid_maximum ← required (readDouble j "z_grid_maximum")
  let number_of_z_grid_points ← required (readInt j "number_of_z_grid_points")
  let number_of_phi_grid_points ← required (readInt j "number_of_phi_grid_points")
  let p : Params := ⟨normalize_by_currents, assume_stellarator_symmetry, number_of_field_periods, r_grid_minimum, r_grid_maximum,
    number_of_r_grid_points, z_grid_minimum, z_grid_maximum, number_of_z_grid_points, number_of_phi_grid_points⟩
  isValid p
  .ok p

/-- `ImportMakegridParametersFromJson`, `makegrid_lib.cc:94-271`: a document which is not an object contains nothing -/
def importJson (doc : Option Json) : Outcome Params :=
  match doc with
  | none => .throws "parse error"
  | some (.obj j) => importObj j
  | some _ => importObj fun _ => none

/-- `ImportMakegridParametersFromFile`, `makegrid_lib.cc:273-280`; `file` is `none` if it cannot be read, otherwise the document in it -/
def importFile (file : Option (Option Json)) : Outcome Params :=
  match file with
  | none => .abort "CHECK_OK"
  | some doc => importJson doc

/-- `MakegridParameters.from_file` as seen by Python: a status becomes an exception, `pybind_vmec.cc:60-74`, `:1172-1179` -/
def pyFromFile (file : Option (Option Json)) : Outcome Params :=
  match importFile file with
  | .status m => .throws m
  | r => r

/-! ## The Python mirror of the parameters -/

/-- a Python value -/
inductive PyVal where
  | bool (b : Bool)
  | int (i : Int)
  | float (x : D)
  deriving DecidableEq

/-- `MakegridParameters.model_fields`, `_free_boundary.py:25-44`: names in the order of their definition -/
def modelFields : List String :=
  ["normalize_by_currents", "assume_stellarator_symmetry", "number_of_field_periods", "r_grid_minimum", "r_grid_maximum", "number_of_r_grid_points",
   "z_grid_minimum", "z_grid_maximum", "number_of_z_grid_points", "number_of_phi_grid_points"]

/-- `getattr`, for the Python object and for the C++ object (`def_readonly`, `pybind_vmec.cc:1180-1199`) -/
def getattr (p : Params) (name : String) : Option PyVal :=
  match name with
  | "normalize_by_currents" => some (.bool p.normalize_by_currents)
  | "assume_stellarator_symmetry" => some (.bool p.assume_stellarator_symmetry)
  | "number_of_field_periods" => some (.int p.number_of_field_periods)
  | "r_grid_minimum" => some (.float p.r_grid_minimum)
  | "r_grid_maximum" => some (.float p.r_grid_maximum)
  | "number_of_r_grid_points" => some (.int p.number_of_r_grid_points)
  | "z_grid_minimum" => some (.float p.z_grid_minimum)
  | "z_grid_maximum" => some (.float p.z_grid_maximum)
  | "number_of_z_grid_points" => some (.int p.number_of_z_grid_points)
  | "number_of_phi_grid_points" => some (.int p.number_of_phi_grid_points)
  | _ => none

/-- argument conversion of pybind11 for `int`: out of range is refused (`TypeError`) -/
def castInt (i : Int) : Outcome Int := if -2 ^ 31 ≤ i ∧ i < 2 ^ 31 then .ok i else .throws "TypeError"

/-- the constructor bound for Python, `pybind_vmec.cc:1165-1171`: aggregate initialisation in the order of the members; other argument lists are refused -/
def construct (args : List (Option PyVal)) : Outcome Params :=
  match args with
  | [some (.bool a), some (.bool b), some (.int c), some (.float d), some (.float e), some (.int f), some (.float g), some (.float h), some (.int i),
     some (.int j)] => do
    let c ← castInt c
    let f ← castInt f
    let i ← castInt i
    let j ← castInt j
    .ok ⟨a, b, c, d, e, f, g, h, i, j⟩
  | _ => .throws "TypeError"

/-- `_to_cpp_makegrid_parameters`, `_free_boundary.py:55-58` -/
def toCpp (p : Params) : Outcome Params := construct (modelFields.map (getattr p))

/-- keyword arguments `**{attr: getattr(cpp_obj, attr) ...}`, `_free_boundary.py:49-52` -/
def keywords (p : Params) : List (String × Option PyVal) := modelFields.map fun a => (a, getattr p a)

/-- the value of a keyword -/
def keyword (kw : List (String × Option PyVal)) (name : String) : Option PyVal := (kw.lookup name).join

/-- the pydantic constructor: every field has to be given with its type, no other name is allowed (`extra="forbid"`), `_free_boundary.py:23` -/
def pydantic (kw : List (String × Option PyVal)) : Outcome Params :=
  if kw.all (fun e => modelFields.contains e.1) then
    match keyword kw "normalize_by_currents", keyword kw "assume_stellarator_symmetry", keyword kw "number_of_field_periods", keyword kw "r_grid_minimum",
      keyword kw "r_grid_maximum", keyword kw "number_of_r_grid_points", keyword kw "z_grid_minimum", keyword kw "z_grid_maximum",
      keyword kw "number_of_z_grid_points", keyword kw "number_of_phi_grid_points" with
    | some (.bool a), some (.bool b), some (.int c), some (.float d), some (.float e), some (.int f), some (.float g), some (.float h), some (.int i),
      some (.int j) => .ok ⟨a, b, c, d, e, f, g, h, i, j⟩
    | _, _, _, _, _, _, _, _, _, _ => .throws "ValidationError"
  else .throws "ValidationError"

/-- `_from_cpp_makegrid_parameters`, `_free_boundary.py:45-53` -/
def fromCpp (p : Params) : Outcome Params := pydantic (keywords p)

/-! ## Tables -/

inductive Comp where
  | b_r
  | b_p
  | b_z
  deriving DecidableEq

/-- contents of an array: circuit, grid point -/
abbrev Data := Int → Int → D

/-- a C++ `MagneticFieldResponseTable`, `makegrid_lib.h:60-78` -/
structure CppTable where
  parameters : Params
  field : Comp → Data

/-- the C++ objects that exist -/
structure Heap where
  next : ℕ
  get : ℕ → CppTable

/-- a numpy array: a view of a component of a C++ object, which is its `base` (`DefEigenProperty`, `pybind_vmec.cc:43-58`), or an array with another base -/
inductive Arr where
  | view (o : ℕ) (k : Comp)
  | own (d : Data)

/-- the Python object, `_free_boundary.py:67-88` -/
structure PyTable where
  parameters : Params
  field : Comp → Arr

/-- `.base` if it is a C++ table -/
def base : Arr → Option ℕ
  | .view o _ => some o
  | .own _ => none

/-- what Python sees in an array -/
def Arr.read (h : Heap) : Arr → Data
  | .view o k => (h.get o).field k
  | .own d => d

/-- `_from_cpp_magnetic_field_response_table`, `_free_boundary.py:90-105` -/
def tableFromCpp (h : Heap) (o : ℕ) : Outcome PyTable := do
  let p ← fromCpp (h.get o).parameters
  .ok ⟨p, fun k => .view o k⟩

/-- a new C++ object -/
def alloc (h : Heap) (t : CppTable) : Heap × ℕ := (⟨h.next + 1, fun o => if o = h.next then t else h.get o⟩, h.next)

/-- the test of `_free_boundary.py:130-135`: `b_r.base` is a C++ table and is also the base of `b_p` and `b_z` -/
def underlying (t : PyTable) : Option ℕ :=
  match base (t.field .b_r) with
  | none => none
  | some o => if some o = base (t.field .b_p) ∧ some o = base (t.field .b_z) then some o else none

/-- `_to_cpp_magnetic_field_response_table`, `_free_boundary.py:121-142` -/
def tableToCpp (h : Heap) (t : PyTable) : Outcome (Heap × ℕ) :=
  match underlying t with
  | some o => .ok (h, o)
  | none => do
    let p ← toCpp t.parameters
    .ok (alloc h ⟨p, fun k => (t.field k).read h⟩)

/-- `t.b_x[i, j] = v` -/
def writeElement (h : Heap) (t : PyTable) (k : Comp) (i j : Int) (v : D) : Heap × PyTable :=
  let set (d : Data) : Data := fun a b => if a = i ∧ b = j then v else d a b
  match t.field k with
  | .view o q => (⟨h.next, fun o' => if o' = o then ⟨(h.get o).parameters, fun q' => if q' = q then set ((h.get o).field q) else (h.get o).field q'⟩
      else h.get o'⟩, t)
  | .own d => (h, ⟨t.parameters, fun k' => if k' = k then .own (set d) else t.field k'⟩)

/-- `t.b_x = array` -/
def assign (t : PyTable) (k : Comp) (a : Arr) : PyTable := ⟨t.parameters, fun k' => if k' = k then a else t.field k'⟩

/-- a user of the Python object: changes elements or puts arrays of their own in place -/
inductive Op where
  | write (k : Comp) (i j : Int) (v : D)
  | replace (k : Comp) (d : Data)

def step (s : Heap × PyTable) : Op → Heap × PyTable
  | .write k i j v => writeElement s.1 s.2 k i j v
  | .replace k d => (s.1, assign s.2 k (.own d))

end Verif.FieldTable
