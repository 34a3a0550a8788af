import Verif.OutputIo.Model
import Verif.HotRestart.Model

/-!
# Model of the handover of results between C++ and Python

`src/vmecpp/__init__.py`: `VmecWOut._from_cpp_wout` and `_to_cpp_wout` (1610-1676), the `_from_cpp_…` functions of the other output
classes, and how `run` (2345-2482) builds the hot restart.  `vmec/pybind11/pybind_vmec.cc:688-1082`: the bindings.

A C++ object is a table of the values of its members (`OutputIo`), a Python object a table of values or `None`.  Of pydantic,
jaxtyping and pybind11 the conversions are modelled that these functions use: a field refuses a value of another type, a string
that is too long and a mode that is none of the three; `int` members refuse values that do not fit, arrays of integers are cast;
`None` is refused by every member.  Strings are sequences of characters (bytes that are not UTF-8 are not modelled).
-/
namespace Verif.PyWout
open Verif Verif.OutputIo

/-- the types of the Python fields -/
inductive Check where
  /-- `Annotated[str, Field(max_length=n)]` -/
  | str (max : Nat)
  /-- `MgridModeType`, `__init__.py:116-118` -/
  | mode
  | bool | int | float
  /-- one-dimensional array of doubles; `extcur` has in addition a validator for scalars, which C++ does not deliver -/
  | vec
  /-- `AuxSType` and `AuxFType`, `__init__.py:107-114` -/
  | pad (fill : Int)
  /-- array of integers; the validator converts to 64 bits -/
  | ints
  /-- two-dimensional array of doubles -/
  | mat
  | optVec | optMat

def Check.optional : Check → Bool
  | .optVec | .optMat => true
  | _ => false

/-- `_util.right_pad` with the length `ndfmax`, `_util.py:417-441`, `__init__.py:784` -/
def rightPad (v : List D) (fill : D) : List D := v ++ List.replicate (max v.length 101 - v.length) fill

/-- validation of a field; the values are those that getting a member of a C++ object delivers -/
def validate : Check → Val → Outcome Val
  | .str n, .str s => if s.length ≤ n then .ok (.str s) else .throws "string_too_long"
  | .mode, .str s => if s = "R" ∨ s = "S" ∨ s = "" then .ok (.str s) else .throws "literal_error"
  | .bool, .bool b => .ok (.bool b)
  | .int, .int i => .ok (.int i)
  | .float, .double x => .ok (.double x)
  | .vec, .doubles v => .ok (.doubles v)
  | .pad f, .doubles v => .ok (.doubles (rightPad v (.fin f)))
  | .ints, .ints v => .ok (.ints v)
  | .mat, .matrix a => .ok (.matrix a)
  | .optVec, .doubles v => .ok (.doubles v)
  | .optMat, .matrix a => .ok (.matrix a)
  | _, _ => .throws "is_instance_of"

/-- the fields of a Python object: a value, or `None` -/
abbrev Fields := String → Option Val

def setField (o : Fields) (x : String) (v : Option Val) : Fields := fun y => if y = x then v else o y

/-- a `VmecWOut`: its fields and the additional attributes that `extra="allow"` admits (`__init__.py:805`) -/
structure Py where
  field : Fields
  extra : List (String × Val)

/-- the fields of `VmecWOut`, `__init__.py:834-1430` -/
def fields : List (String × Check) := [
  ("input_extension", .str 100), ("ier_flag", .int), ("nfp", .int), ("ns", .int), ("mpol", .int), ("ntor", .int),
  ("mnmax", .int), ("mnmax_nyq", .int), ("lasym", .bool), ("lfreeb", .bool), ("lrfp", .bool), ("wb", .float), ("wp", .float),
  ("rmax_surf", .float), ("rmin_surf", .float), ("zmax_surf", .float), ("aspect", .float), ("betapol", .float),
  ("betator", .float), ("betaxis", .float), ("b0", .float), ("rbtor0", .float), ("rbtor", .float), ("IonLarmor", .float),
  ("ctor", .float), ("Aminor_p", .float), ("Rmajor_p", .float), ("volume", .float), ("fsqr", .float), ("fsqz", .float),
  ("fsql", .float), ("ftolv", .float), ("itfsq", .int), ("phipf", .vec), ("chipf", .vec), ("jcuru", .vec), ("jcurv", .vec),
  ("fsqt", .vec), ("force_residual_r", .vec), ("force_residual_z", .vec), ("force_residual_lambda", .vec), ("delbsq", .vec),
  ("restart_reason_timetrace", .ints), ("wdot", .vec), ("jdotb", .vec), ("bdotb", .vec), ("bdotgradv", .vec), ("DMerc", .vec),
  ("equif", .vec), ("xm", .ints), ("xn", .ints), ("xm_nyq", .ints), ("xn_nyq", .ints), ("mass", .vec), ("buco", .vec),
  ("bvco", .vec), ("phips", .vec), ("bmnc", .mat), ("gmnc", .mat), ("bsubumnc", .mat), ("bsubvmnc", .mat), ("bsubsmns", .mat),
  ("bsupumnc", .mat), ("bsupvmnc", .mat), ("currumnc", .mat), ("currvmnc", .mat), ("rmnc", .mat), ("zmns", .mat),
  ("lmns", .mat), ("lmns_full", .mat), ("rmns", .optMat), ("zmnc", .optMat), ("lmnc", .optMat), ("lmnc_full", .optMat),
  ("gmns", .optMat), ("bmns", .optMat), ("bsubumns", .optMat), ("bsubvmns", .optMat), ("bsubsmnc", .optMat),
  ("bsupumns", .optMat), ("bsupvmns", .optMat), ("currumns", .optMat), ("currvmns", .optMat), ("pcurr_type", .str 20),
  ("pmass_type", .str 20), ("piota_type", .str 20), ("am", .vec), ("ac", .vec), ("ai", .vec), ("am_aux_s", .pad (-1)),
  ("am_aux_f", .pad 0), ("ac_aux_s", .pad (-1)), ("ac_aux_f", .pad 0), ("ai_aux_s", .pad (-1)), ("ai_aux_f", .pad 0),
  ("gamma", .float), ("mgrid_file", .str 200), ("nextcur", .int), ("extcur", .vec), ("mgrid_mode", .mode), ("iotas", .vec),
  ("iotaf", .vec), ("betatotal", .float), ("raxis_cc", .vec), ("zaxis_cs", .vec), ("raxis_cs", .optVec), ("zaxis_cc", .optVec),
  ("vp", .vec), ("presf", .vec), ("pres", .vec), ("phi", .vec), ("signgs", .int), ("volavgB", .float), ("q_factor", .vec),
  ("chi", .vec), ("specw", .vec), ("over_r", .vec), ("DShear", .vec), ("DWell", .vec), ("DCurr", .vec), ("DGeod", .vec),
  ("niter", .int), ("beta_vol", .vec), ("version_", .float)]

/-- the members of the binding of `WOutFileContents`, `pybind_vmec.cc:911-1082`; these are all members of the class -/
def members : List (String × Kind) := [
  ("version_", .double), ("input_extension", .str), ("signgs", .int), ("gamma", .double), ("pcurr_type", .str),
  ("pmass_type", .str), ("piota_type", .str), ("am", .doubles), ("ac", .doubles), ("ai", .doubles), ("am_aux_s", .doubles),
  ("am_aux_f", .doubles), ("ac_aux_s", .doubles), ("ac_aux_f", .doubles), ("ai_aux_s", .doubles), ("ai_aux_f", .doubles),
  ("nfp", .int), ("mpol", .int), ("ntor", .int), ("lasym", .bool), ("lrfp", .bool), ("ns", .int), ("ftolv", .double),
  ("niter", .int), ("lfreeb", .bool), ("mgrid_file", .str), ("nextcur", .int), ("extcur", .doubles), ("mgrid_mode", .str),
  ("wb", .double), ("wp", .double), ("rmax_surf", .double), ("rmin_surf", .double), ("zmax_surf", .double), ("mnmax", .int),
  ("mnmax_nyq", .int), ("ier_flag", .int), ("aspect", .double), ("betatotal", .double), ("betapol", .double),
  ("betator", .double), ("betaxis", .double), ("b0", .double), ("rbtor0", .double), ("rbtor", .double), ("IonLarmor", .double),
  ("volavgB", .double), ("ctor", .double), ("Aminor_p", .double), ("Rmajor_p", .double), ("volume", .double), ("fsqr", .double),
  ("fsqz", .double), ("fsql", .double), ("itfsq", .int), ("iotaf", .doubles), ("q_factor", .doubles), ("presf", .doubles),
  ("phi", .doubles), ("phipf", .doubles), ("chi", .doubles), ("chipf", .doubles), ("jcuru", .doubles), ("jcurv", .doubles),
  ("force_residual_r", .doubles), ("force_residual_z", .doubles), ("force_residual_lambda", .doubles), ("fsqt", .doubles),
  ("delbsq", .doubles), ("wdot", .doubles), ("restart_reason_timetrace", .ints), ("iotas", .doubles), ("mass", .doubles),
  ("pres", .doubles), ("beta_vol", .doubles), ("buco", .doubles), ("bvco", .doubles), ("vp", .doubles), ("specw", .doubles),
  ("phips", .doubles), ("over_r", .doubles), ("jdotb", .doubles), ("bdotb", .doubles), ("bdotgradv", .doubles),
  ("DMerc", .doubles), ("DShear", .doubles), ("DWell", .doubles), ("DCurr", .doubles), ("DGeod", .doubles), ("equif", .doubles),
  ("curlabel", .strs), ("potvac", .doubles), ("xm", .ints), ("xn", .ints), ("xm_nyq", .ints), ("xn_nyq", .ints),
  ("raxis_cc", .doubles), ("zaxis_cs", .doubles), ("rmnc", .matrix), ("zmns", .matrix), ("lmns_full", .matrix),
  ("lmns", .matrix), ("gmnc", .matrix), ("bmnc", .matrix), ("bsubumnc", .matrix), ("bsubvmnc", .matrix), ("bsubsmns", .matrix),
  ("bsubsmns_full", .matrix), ("bsupumnc", .matrix), ("bsupvmnc", .matrix), ("currumnc", .matrix), ("currvmnc", .matrix),
  ("raxis_cs", .doubles), ("zaxis_cc", .doubles), ("rmns", .matrix), ("zmnc", .matrix), ("lmnc_full", .matrix),
  ("lmnc", .matrix), ("gmns", .matrix), ("bmns", .matrix), ("bsubumns", .matrix), ("bsubvmns", .matrix), ("bsubsmnc", .matrix),
  ("bsubsmnc_full", .matrix), ("bsupumns", .matrix), ("bsupvmns", .matrix), ("currumns", .matrix), ("currvmns", .matrix)]

/-- `_CPP_WOUT_SPECIAL_HANDLING`, `__init__.py:808-826` -/
def special : List String := [
  "raxis_cs", "zaxis_cc", "rmns", "zmnc", "lmnc_full", "bsubsmnc", "lmnc", "gmns", "bmns", "bsubumns", "bsubvmns", "bsupumns",
  "bsupvmns", "currumns", "currvmns"]

/-- getting an attribute of a C++ object -/
def getattr (ms : List (String × Kind)) (c : Obj) (x : String) : Outcome Val :=
  if (ms.lookup x).isSome then .ok (c x) else .throws "AttributeError"

/-- the loop of `__init__.py:1615-1617` -/
def readPlain (c : Obj) : List (String × Check) → Fields → Outcome Fields
  | [], a => .ok a
  | (x, _) :: t, a =>
    if x ∈ special then readPlain c t a
    else do
      let v ← getattr members c x
      readPlain c t (setField a x (some v))

/-- the assignments of `__init__.py:1622-1640` -/
def asymRead : List String := [
  "raxis_cs", "zaxis_cc", "rmns", "zmnc", "lmnc_full", "bsubsmnc", "lmnc", "bmns", "bsubumns", "bsubvmns", "bsupumns", "bsupvmns",
  "currumns", "currvmns", "gmns"]

def readAsym (c : Obj) : List String → Fields → Outcome Fields
  | [], a => .ok a
  | x :: t, a => do
    let v ← getattr members c x
    readAsym c t (setField a x (some v))

/-- `VmecWOut(**attrs)`: fields that are not given take their default; `None` is the default of the optional ones -/
def construct (a : Fields) : List (String × Check) → Fields → Outcome Fields
  | [], o => .ok o
  | (x, k) :: t, o =>
    match a x with
    | some v => do
      let w ← validate k v
      construct a t (setField o x (some w))
    | none => if k.optional then construct a t (setField o x none) else .throws "missing"

def truth : Val → Bool
  | .bool b => b
  | _ => false

/-- `_from_cpp_wout`, `__init__.py:1610-1642` -/
def fromCpp (c : Obj) : Outcome Py := do
  let a ← readPlain c fields (fun _ => none)
  let a ← if truth (c "lasym") then readAsym c asymRead a else .ok a
  let o ← construct a fields (fun _ => none)
  .ok ⟨o, []⟩

/-- value-initialised member -/
def zeroOf : Kind → Val
  | .bool => .bool false
  | .int => .int 0
  | .double => .double 0
  | .str => .str ""
  | .strs => .strs []
  | .ints => .ints []
  | .doubles => .doubles []
  | .matrix => .matrix ⟨0, 0, fun _ _ => 0⟩

/-- `_vmecpp.WOutFileContents()` -/
def zeroObj : Obj := fun x => match members.lookup x with
  | some k => zeroOf k
  | none => .int 0

/-- conversion of a Python value to the type of a member -/
def convert : Kind → Val → Outcome Val
  | .bool, .bool b => .ok (.bool b)
  | .int, .int i => if -2147483648 ≤ i ∧ i < 2147483648 then .ok (.int i) else .throws "TypeError"
  | .double, .double x => .ok (.double x)
  | .str, .str s => .ok (.str s)
  | .strs, .strs v => .ok (.strs v)
  | .ints, .ints v => .ok (.ints (v.map fun i => Int.bmod i 4294967296))
  | .doubles, .doubles v => .ok (.doubles v)
  | .matrix, .matrix a => .ok (.matrix a)
  | _, _ => .throws "TypeError"

/-- setting an attribute of a C++ object -/
def setattr (c : Obj) (x : String) (v : Option Val) : Outcome Obj :=
  match members.lookup x, v with
  | some k, some v => do
    let w ← convert k v
    .ok (OutputIo.put c x w)
  | some _, none => .throws "TypeError"
  | none, _ => .throws "AttributeError"

/-- the loop of `__init__.py:1648-1650` -/
def writePlain (p : Fields) : List (String × Check) → Obj → Outcome Obj
  | [], c => .ok c
  | (x, _) :: t, c =>
    if x ∈ special then writePlain p t c
    else do
      let c ← setattr c x (p x)
      writePlain p t c

/-- the list of `__init__.py:1657-1671` -/
def asymWrite : List String := [
  "rmns", "zmnc", "lmnc_full", "bsubsmnc", "lmnc", "gmns", "bmns", "bsubumns", "bsubvmns", "bsupumns", "bsupvmns", "currumns",
  "currvmns"]

/-- the loop of `__init__.py:1657-1674` -/
def writeAsym (p : Fields) : List String → Obj → Outcome Obj
  | [], c => .ok c
  | x :: t, c =>
    match p x with
    | none => writeAsym p t c
    | some v => do
      let c ← setattr c x (some v)
      writeAsym p t c

/-- `_to_cpp_wout`, `__init__.py:1644-1676`; the additional attributes are not looked at -/
def toCpp (p : Py) : Outcome Obj := do
  let c ← writePlain p.field fields zeroObj
  if ((p.field "lasym").map truth).getD false then do
    let c ← setattr c "raxis_cs" (p.field "raxis_cs")
    let c ← setattr c "zaxis_cc" (p.field "zaxis_cc")
    writeAsym p.field asymWrite c
  else .ok c

/-! ## The other output classes -/

/-- members of the binding of `JxBOutFileContents`, `pybind_vmec.cc:688` -/
def jxBOutMembers : List (String × Kind) := [
  ("itheta", .matrix), ("izeta", .matrix), ("bdotk", .matrix), ("amaxfor", .doubles), ("aminfor", .doubles),
  ("avforce", .doubles), ("pprim", .doubles), ("jdotb", .doubles), ("bdotb", .doubles), ("bdotgradv", .doubles),
  ("jpar2", .doubles), ("jperp2", .doubles), ("phin", .doubles), ("jsupu3", .matrix), ("jsupv3", .matrix), ("jsups3", .matrix),
  ("bsupu3", .matrix), ("bsupv3", .matrix), ("jcrossb", .matrix), ("jxb_gradp", .matrix), ("jdotb_sqrtg", .matrix),
  ("sqrtg3", .matrix), ("bsubu3", .matrix), ("bsubv3", .matrix), ("bsubs3", .matrix)]
/-- fields of `JxBOut`, `__init__.py:2187-2283` -/
def jxBOutFields : List (String × Check) := [
  ("itheta", .mat), ("izeta", .mat), ("bdotk", .mat), ("amaxfor", .vec), ("aminfor", .vec), ("avforce", .vec), ("pprim", .vec),
  ("jdotb", .vec), ("bdotb", .vec), ("bdotgradv", .vec), ("jpar2", .vec), ("jperp2", .vec), ("phin", .vec), ("jsupu3", .mat),
  ("jsupv3", .mat), ("jsups3", .mat), ("bsupu3", .mat), ("bsupv3", .mat), ("jcrossb", .mat), ("jxb_gradp", .mat),
  ("jdotb_sqrtg", .mat), ("sqrtg3", .mat), ("bsubu3", .mat), ("bsubv3", .mat), ("bsubs3", .mat)]

/-- members of the binding of `MercierFileContents`, `pybind_vmec.cc:717` -/
def mercierMembers : List (String × Kind) := [
  ("s", .doubles), ("toroidal_flux", .doubles), ("iota", .doubles), ("shear", .doubles), ("d_volume_d_s", .doubles),
  ("well", .doubles), ("toroidal_current", .doubles), ("d_toroidal_current_d_s", .doubles), ("pressure", .doubles),
  ("d_pressure_d_s", .doubles), ("DMerc", .doubles), ("Dshear", .doubles), ("Dwell", .doubles), ("Dcurr", .doubles),
  ("Dgeod", .doubles)]
/-- fields of `Mercier`, `__init__.py:2130-2184` -/
def mercierFields : List (String × Check) := [
  ("s", .vec), ("toroidal_flux", .vec), ("iota", .vec), ("shear", .vec), ("d_volume_d_s", .vec), ("well", .vec),
  ("toroidal_current", .vec), ("d_toroidal_current_d_s", .vec), ("pressure", .vec), ("d_pressure_d_s", .vec), ("DMerc", .vec),
  ("Dshear", .vec), ("Dwell", .vec), ("Dcurr", .vec), ("Dgeod", .vec)]

/-- members of the binding of `Threed1Volumetrics`, `pybind_vmec.cc:859` -/
def threed1VolumetricsMembers : List (String × Kind) := [
  ("int_p", .double), ("avg_p", .double), ("int_bpol", .double), ("avg_bpol", .double), ("int_btor", .double),
  ("avg_btor", .double), ("int_modb", .double), ("avg_modb", .double), ("int_ekin", .double), ("avg_ekin", .double)]
/-- fields of `Threed1Volumetrics`, `__init__.py:1744-1789` -/
def threed1VolumetricsFields : List (String × Check) := [
  ("int_p", .float), ("avg_p", .float), ("int_bpol", .float), ("avg_bpol", .float), ("int_btor", .float), ("avg_btor", .float),
  ("int_modb", .float), ("avg_modb", .float), ("int_ekin", .float), ("avg_ekin", .float)]

/-- members of the binding of `Threed1FirstTable`, `pybind_vmec.cc:740` -/
def threed1FirstTableMembers : List (String × Kind) := [
  ("s", .doubles), ("radial_force", .doubles), ("toroidal_flux", .doubles), ("iota", .doubles), ("avg_jsupu", .doubles),
  ("avg_jsupv", .doubles), ("d_volume_d_phi", .doubles), ("d_pressure_d_phi", .doubles), ("spectral_width", .doubles),
  ("pressure", .doubles), ("buco_full", .doubles), ("bvco_full", .doubles), ("j_dot_b", .doubles), ("b_dot_b", .doubles)]
/-- fields of `Threed1FirstTable`, `__init__.py:1792-1852` -/
def threed1FirstTableFields : List (String × Check) := [
  ("s", .vec), ("radial_force", .vec), ("toroidal_flux", .vec), ("iota", .vec), ("avg_jsupu", .vec), ("avg_jsupv", .vec),
  ("d_volume_d_phi", .vec), ("d_pressure_d_phi", .vec), ("spectral_width", .vec), ("pressure", .vec), ("buco_full", .vec),
  ("bvco_full", .vec), ("j_dot_b", .vec), ("b_dot_b", .vec)]

/-- members of the binding of `Threed1GeometricAndMagneticQuantities`, `pybind_vmec.cc:759` -/
def threed1GeometricAndMagneticQuantitiesMembers : List (String × Kind) := [
  ("toroidal_flux", .double), ("circum_p", .double), ("surf_area_p", .double), ("cross_area_p", .double), ("volume_p", .double),
  ("Rmajor_p", .double), ("Aminor_p", .double), ("aspect", .double), ("kappa_p", .double), ("rcen", .double),
  ("aminr1", .double), ("pavg", .double), ("factor", .double), ("b0", .double), ("rmax_surf", .double), ("rmin_surf", .double),
  ("zmax_surf", .double), ("bmin", .matrix), ("bmax", .matrix), ("waist", .doubles), ("height", .doubles), ("betapol", .double),
  ("betatot", .double), ("betator", .double), ("VolAvgB", .double), ("IonLarmor", .double), ("jpar_perp", .double),
  ("jparPS_perp", .double), ("toroidal_current", .double), ("rbtor", .double), ("rbtor0", .double), ("psi", .doubles),
  ("ygeo", .doubles), ("yinden", .doubles), ("yellip", .doubles), ("ytrian", .doubles), ("yshift", .doubles),
  ("loc_jpar_perp", .doubles), ("loc_jparPS_perp", .doubles)]
/-- fields of `Threed1GeometricAndMagneticQuantities`, `__init__.py:1855-1991` -/
def threed1GeometricAndMagneticQuantitiesFields : List (String × Check) := [
  ("toroidal_flux", .float), ("circum_p", .float), ("surf_area_p", .float), ("cross_area_p", .float), ("volume_p", .float),
  ("Rmajor_p", .float), ("Aminor_p", .float), ("aspect", .float), ("kappa_p", .float), ("rcen", .float), ("aminr1", .float),
  ("pavg", .float), ("factor", .float), ("b0", .float), ("rmax_surf", .float), ("rmin_surf", .float), ("zmax_surf", .float),
  ("bmin", .mat), ("bmax", .mat), ("waist", .vec), ("height", .vec), ("betapol", .float), ("betatot", .float),
  ("betator", .float), ("VolAvgB", .float), ("IonLarmor", .float), ("jpar_perp", .float), ("jparPS_perp", .float),
  ("toroidal_current", .float), ("rbtor", .float), ("rbtor0", .float), ("psi", .vec), ("ygeo", .vec), ("yinden", .vec),
  ("yellip", .vec), ("ytrian", .vec), ("yshift", .vec), ("loc_jpar_perp", .vec), ("loc_jparPS_perp", .vec)]

/-- members of the binding of `Threed1AxisGeometry`, `pybind_vmec.cc:875` -/
def threed1AxisGeometryMembers : List (String × Kind) := [
  ("raxis_symm", .doubles), ("zaxis_symm", .doubles), ("raxis_asym", .doubles), ("zaxis_asym", .doubles)]
/-- fields of `Threed1AxisGeometry`, `__init__.py:1994-2022` -/
def threed1AxisGeometryFields : List (String × Check) := [
  ("raxis_symm", .vec), ("zaxis_symm", .vec), ("raxis_asym", .vec), ("zaxis_asym", .vec)]

/-- members of the binding of `Threed1Betas`, `pybind_vmec.cc:881` -/
def threed1BetasMembers : List (String × Kind) := [
  ("betatot", .double), ("betapol", .double), ("betator", .double), ("rbtor", .double), ("betaxis", .double),
  ("betstr", .double)]
/-- fields of `Threed1Betas`, `__init__.py:2025-2057` -/
def threed1BetasFields : List (String × Check) := [
  ("betatot", .float), ("betapol", .float), ("betator", .float), ("rbtor", .float), ("betaxis", .float), ("betstr", .float)]

/-- members of the binding of `Threed1ShafranovIntegrals`, `pybind_vmec.cc:889` -/
def threed1ShafranovIntegralsMembers : List (String × Kind) := [
  ("scaling_ratio", .double), ("r_lao", .double), ("f_lao", .double), ("f_geo", .double), ("smaleli", .double),
  ("betai", .double), ("musubi", .double), ("lambda", .double), ("s11", .double), ("s12", .double), ("s13", .double),
  ("s2", .double), ("s3", .double), ("delta1", .double), ("delta2", .double), ("delta3", .double)]
/-- fields of `Threed1ShafranovIntegrals`, `__init__.py:2060-2127` -/
def threed1ShafranovIntegralsFields : List (String × Check) := [
  ("scaling_ratio", .float), ("r_lao", .float), ("f_lao", .float), ("f_geo", .float), ("smaleli", .float), ("betai", .float),
  ("musubi", .float), ("lambda_", .float), ("s11", .float), ("s12", .float), ("s13", .float), ("s2", .float), ("s3", .float),
  ("delta1", .float), ("delta2", .float), ("delta3", .float)]

/-- `cpp_name`, `__init__.py:2125`; the other classes use the names as they are -/
def cppName (cls x : String) : String := if cls = "Threed1ShafranovIntegrals" ∧ x = "lambda_" then "lambda" else x

/-- the dictionary that is handed to the constructor -/
def readAll (cls : String) (ms : List (String × Kind)) (c : Obj) : List (String × Check) → Fields → Outcome Fields
  | [], a => .ok a
  | (x, _) :: t, a => do
    let v ← getattr ms c (cppName cls x)
    readAll cls ms c t (setField a x (some v))

/-- `_from_cpp_jxbout`, `_from_cpp_mercier`, `_from_cpp_threed1…`, `__init__.py:1779, 1844, 1983, 2014, 2049, 2119, 2179, 2278` -/
def fromCppOther (cls : String) (ms : List (String × Kind)) (fs : List (String × Check)) (c : Obj) : Outcome Fields := do
  let a ← readAll cls ms c fs (fun _ => none)
  construct a fs (fun _ => none)

/-- the classes beside `VmecWOut` in a `VmecOutput`, `__init__.py:2448-2482` -/
def others : List (String × List (String × Kind) × List (String × Check)) := [
  ("JxBOut", jxBOutMembers, jxBOutFields),
  ("Mercier", mercierMembers, mercierFields),
  ("Threed1Volumetrics", threed1VolumetricsMembers, threed1VolumetricsFields),
  ("Threed1FirstTable", threed1FirstTableMembers, threed1FirstTableFields),
  ("Threed1GeometricAndMagneticQuantities", threed1GeometricAndMagneticQuantitiesMembers, threed1GeometricAndMagneticQuantitiesFields),
  ("Threed1AxisGeometry", threed1AxisGeometryMembers, threed1AxisGeometryFields),
  ("Threed1Betas", threed1BetasMembers, threed1BetasFields),
  ("Threed1ShafranovIntegrals", threed1ShafranovIntegralsMembers, threed1ShafranovIntegralsFields)]

/-! ## `run` and the hot restart -/

/-- the Python objects `VmecInput` by identity; they can be changed after they were handed over -/
abbrev Heap := Nat → HotRestart.RunSpec

/-- a `VmecOutput`: the input *object* and the sizes of the coefficients in `wout` -/
structure Output where
  input : Nat
  mnmax : Int
  ns : Int

/-- number of Fourier modes, `sizes.cc:144` -/
def mnmaxOf (s : HotRestart.RunSpec) : Int := (s.ntor + 1) + (s.mpol - 1) * (2 * s.ntor + 1)

/-- `InitFromState` reads column `jF` of `lmns_full` for every surface of the first stage and `mnmax` entries of every column,
    `fourier_geometry.cc:182-240` -/
def copyState (o : Output) (s : HotRestart.RunSpec) : Outcome Unit :=
  match s.ns_array.head? with
  | none => .ub "ns_array[0]"
  | some n => if n ≤ o.ns ∧ mnmaxOf s ≤ o.mnmax then .ok () else .ub "element of wout out of range"

/-- checking and copying the initial state, `vmec.cc:254-258, 709-722` -/
def restart (h : Heap) (r : Nat) : Option Output → Outcome Unit
  | none => .ok ()
  | some o => do
    HotRestart.checkInitialState (h o.input) (h r)
    copyState o (h r)

/-- a successful `run`, `__init__.py:2392-2482`, for a plain number of modes: `VmecInput.model_validate` of an instance returns this
    instance, and so does the field `input` of `VmecOutput` (pydantic validates instances of models by identity unless
    `revalidate_instances` is set) -/
def pyRun (h : Heap) (r : Nat) (s : Option Output) : Outcome Output := do
  restart h r s
  match (h r).ns_array.getLast? with
  | none => .status "ns_array"
  | some n => .ok ⟨r, mnmaxOf (h r), n⟩

end Verif.PyWout
