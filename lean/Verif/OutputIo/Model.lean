import Verif.Indata.Hdf5

/-!
# Model of saving and loading the outputs

`OutputQuantities::Save` and `Load` with the members `WriteTo` and `LoadInto` of the classes they consist of
(`vmec/output_quantities/output_quantities.cc:38-1370`) and the helpers of `util/hdf5_io/hdf5_io.{h,cc}`.

An object is a table of the values of its members.  A file is a table of groups and datasets; as in `Indata/Hdf5` the library is
represented by what the helpers ask of it.  Conversions between element types are not modelled (`abort`).  The group `/indata`,
which `Save` writes last, is the subject of `Indata/Hdf5`.
-/
namespace Verif.OutputIo
open Verif Verif.Indata

/-- the C++ types of the members -/
inductive Kind where
  | bool | int | double | str | strs | ints | doubles | matrix
  deriving DecidableEq

/-- the value of a member and the contents of a dataset -/
inductive Val where
  | bool (b : Bool)
  | int (i : Int)
  | double (x : D)
  | str (s : String)
  | strs (v : List String)
  | ints (v : List Int)
  | doubles (v : List D)
  | matrix (a : Mat D)

def Val.kind : Val → Kind
  | .bool _ => .bool
  | .int _ => .int
  | .double _ => .double
  | .str _ => .str
  | .strs _ => .strs
  | .ints _ => .ints
  | .doubles _ => .doubles
  | .matrix _ => .matrix

/-- number of dimensions of the dataset -/
def Kind.rank : Kind → Nat
  | .bool | .int | .double | .str => 0
  | .strs | .ints | .doubles => 1
  | .matrix => 2

/-- an object: the values of its members -/
abbrev Obj := String → Val

def put (m : Obj) (x : String) (v : Val) : Obj := fun y => if y = x then v else m y

/-- a file -/
structure File where
  groups : List String
  data : String → String → Option Val

/-- `H5File(path, H5F_ACC_TRUNC)` -/
def emptyFile : File := ⟨[], fun _ _ => none⟩

/-- `createGroup` -/
def createGroup (f : File) (g : String) : Outcome File :=
  if g ∈ f.groups then .throws "group exists" else .ok { f with groups := g :: f.groups }

/-- `createDataSet` and `write` -/
def createDataSet (f : File) (g x : String) (v : Val) : Outcome File :=
  if (f.data g x).isSome then .throws "dataset exists"
  else .ok { f with data := fun g' x' => if g' = g ∧ x' = x then some v else f.data g' x' }

/-- `WriteH5Dataset`, `hdf5_io.h:25-80`, `hdf5_io.cc:11-47`: a list of strings is written from the memory of the `std::string`
    objects as if it held pointers to characters (`hdf5_io.cc:29-37`) -/
def writeDataset (f : File) (g x : String) : Val → Outcome File
  | .str s => createDataSet f g x (.str (cString s))
  | .strs [] => createDataSet f g x (.strs [])
  | .strs (_ :: _) => .ub "string objects read as pointers"
  | v => createDataSet f g x v

/-- the `WRITEMEMBER` lines, `output_quantities.cc:41-42` -/
def writeMembers (g : String) (o : Obj) : List (String × Kind) → File → Outcome File
  | [], f => .ok f
  | (x, _) :: xs, f => do
    let f ← writeDataset f g x (o x)
    writeMembers g o xs f

/-- `WriteTo`: `createGroup(H5key)`, then the members -/
def writeTo (g : String) (t : List (String × Kind)) (o : Obj) (f : File) : Outcome File := do
  let f ← createGroup f g
  writeMembers g o t f

/-- `ReadH5Dataset`, `hdf5_io.h:82-148`, `hdf5_io.cc:49-81`: `openDataSet` throws if there is no such dataset; the sizes are not set
    if the dataset has fewer dimensions than expected, and too many numbers are stored if it has more -/
def readAs (k : Kind) : Option Val → Outcome Val
  | none => .throws "dataset does not exist"
  | some v =>
    if v.kind = k then .ok v
    else if v.kind.rank = k.rank then .abort "conversion not modelled"
    else .ub "dataset with another number of dimensions"

/-- Eigen's `transpose()` -/
def transpose (a : Mat D) : Mat D := ⟨a.cols, a.rows, fun i j => a.val j i⟩

/-- `Zero(mnsize, ns)`, then `rightCols(ns - 1) = tmp.transpose()`, `output_quantities.cc:1091-1092` -/
def padLeft (a : Mat D) (ns mnsize : Int) : Mat D := ⟨mnsize, ns, fun i j => if j = 0 then 0 else a.val (j - 1) i⟩

/-- one statement of a `LoadInto` -/
inductive Step where
  /-- `READMEMBER` -/
  | member (x : String) (k : Kind)
  /-- `READMEMBER_COMPAT` -/
  | renamed (x old : String) (k : Kind)
  /-- `output_quantities.cc:138-153`: zeros as many as in `ref` if the dataset is missing -/
  | orZeros (x ref : String)
  /-- `output_quantities.cc:934-943` -/
  | version
  /-- `output_quantities.cc:968-976` -/
  | freeBoundary
  /-- `output_quantities.cc:1015-1046` -/
  | halfGrid
  /-- `ReadAndTranspose2D` -/
  | turned (x : String)
  /-- `ReadAndTransposePadHalfGrid2D`; `size` names the member with the number of coefficients -/
  | turnedPadded (x size : String)
  /-- `ReadAndTranspose2D` if the dataset exists -/
  | turnedIfThere (x : String)

/-- the value of an `int` member of the receiving object -/
def intOf (m : Obj) (x : String) : Outcome Int :=
  match m x with
  | .int i => .ok i
  | _ => .abort "not an int"

/-- a `RowMatrixXd` -/
def matrixOf : Val → Outcome (Mat D)
  | .matrix a => .ok a
  | _ => .abort "not a matrix"

/-- `READMEMBER`, `output_quantities.cc:43-44` -/
def readMember (f : String → Option Val) (m : Obj) (x : String) (k : Kind) : Outcome Obj := do
  let v ← readAs k (f x)
  .ok (put m x v)

/-- several `READMEMBER` lines -/
def readMembers (f : String → Option Val) : List (String × Kind) → Obj → Outcome Obj
  | [], m => .ok m
  | (x, k) :: xs, m => do
    let m ← readMember f m x k
    readMembers f xs m

/-- the arrays on the half grid under their present names, `output_quantities.cc:1018-1026` -/
def halfGridMembers : List (String × Kind) := [
  ("iotas", .doubles), ("mass", .doubles), ("pres", .doubles), ("beta_vol", .doubles), ("buco", .doubles), ("bvco", .doubles),
  ("vp", .doubles), ("phips", .doubles), ("over_r", .doubles)]

/-- the arrays on the half grid and their former names, `output_quantities.cc:1037-1045` -/
def halfGridOld : List (String × String) := [
  ("iotas", "iota_half"), ("mass", "mass"), ("pres", "pressure_half"), ("beta_vol", "beta"), ("buco", "buco"), ("bvco", "bvco"),
  ("vp", "dVds"), ("phips", "phips"), ("over_r", "overr")]

/-- `ReadHalfGridCompat`, `output_quantities.cc:1030-1036`: a leading zero -/
def readHalfGridCompat (f : String → Option Val) (m : Obj) (x old : String) : Outcome Obj := do
  let v ← readAs .doubles (f old)
  match v with
  | .doubles l => .ok (put m x (.doubles (0 :: l)))
  | _ => .abort "not an array"

def readHalfGridCompats (f : String → Option Val) : List (String × String) → Obj → Outcome Obj
  | [], m => .ok m
  | (x, old) :: xs, m => do
    let m ← readHalfGridCompat f m x old
    readHalfGridCompats f xs m

/-- `ReadAndTranspose2D`, `output_quantities.cc:1071-1084` -/
def readTurned (f : String → Option Val) (m : Obj) (x : String) : Outcome Obj := do
  let v ← readAs .matrix (f x)
  let tmp ← matrixOf v
  let ns ← intOf m "ns"
  let mnmax ← intOf m "mnmax"
  let mnmax_nyq ← intOf m "mnmax_nyq"
  if tmp.rows = ns ∧ (tmp.cols = mnmax ∨ tmp.cols = mnmax_nyq) then .ok (put m x (.matrix (transpose tmp)))
  else .ok (put m x (.matrix tmp))

/-- `ReadAndTransposePadHalfGrid2D`, `output_quantities.cc:1085-1099` -/
def readTurnedPadded (f : String → Option Val) (m : Obj) (x size : String) : Outcome Obj := do
  let mnsize ← intOf m size
  let v ← readAs .matrix (f x)
  let tmp ← matrixOf v
  let ns ← intOf m "ns"
  if tmp.rows = ns - 1 ∧ tmp.cols = mnsize then .ok (put m x (.matrix (padLeft tmp ns mnsize)))
  else if tmp.rows = ns ∧ tmp.cols = mnsize then .ok (put m x (.matrix (transpose tmp)))
  else .ok (put m x (.matrix tmp))

/-- one statement; `stod` is `std::stod` -/
def exec (stod : String → Outcome D) (f : String → Option Val) (m : Obj) : Step → Outcome Obj
  | .member x k => readMember f m x k
  | .renamed x old k =>
    if (f x).isSome then readMember f m x k
    else do
      let v ← readAs k (f old)
      .ok (put m x v)
  | .orZeros x ref =>
    if (f x).isSome then readMember f m x .doubles
    else
      match m ref with
      | .doubles l => .ok (put m x (.doubles (l.map fun _ => 0)))
      | _ => .abort "not an array"
  | .version =>
    if (f "version_").isSome then readMember f m "version_" .double
    else do
      let v ← readAs .str (f "version")
      match v with
      | .str s => do
        let x ← stod s
        .ok (put m "version_" (.double x))
      | _ => .abort "not a string"
  | .freeBoundary =>
    match m "lfreeb" with
    | .bool true => readMembers f [("nextcur", .int), ("extcur", .doubles)] m
    | .bool false => .ok (put (put m "nextcur" (.int 0)) "extcur" (.doubles []))
    | _ => .abort "not a bool"
  | .halfGrid =>
    if (f "iotas").isSome then readMembers f halfGridMembers m else readHalfGridCompats f halfGridOld m
  | .turned x => readTurned f m x
  | .turnedPadded x size => readTurnedPadded f m x size
  | .turnedIfThere x => if (f x).isSome then readTurned f m x else .ok m

/-- `LoadInto` -/
def run (stod : String → Outcome D) (f : String → Option Val) : List Step → Obj → Outcome Obj
  | [], m => .ok m
  | s :: ss, m => do
    let m ← exec stod f m s
    run stod f ss m

/-- the members written by `VmecInternalResults::WriteTo`, `output_quantities.cc:56-123`, with the types of `output_quantities.h` -/
def vmecInternalResults : List (String × Kind) := [
  ("sign_of_jacobian", .int), ("num_full", .int), ("num_half", .int), ("nZnT_reduced", .int), ("sqrtSH", .doubles),
  ("sqrtSF", .doubles), ("sm", .doubles), ("sp", .doubles), ("phipF", .doubles), ("chipF", .doubles), ("phipH", .doubles),
  ("chipH", .doubles), ("currH", .doubles), ("phiF", .doubles), ("iotaF", .doubles), ("spectral_width", .doubles),
  ("bvcoH", .doubles), ("dVdsH", .doubles), ("massH", .doubles), ("presH", .doubles), ("iotaH", .doubles), ("rmncc", .matrix),
  ("rmnss", .matrix), ("rmnsc", .matrix), ("rmncs", .matrix), ("zmnsc", .matrix), ("zmncs", .matrix), ("zmncc", .matrix),
  ("zmnss", .matrix), ("lmnsc", .matrix), ("lmncs", .matrix), ("lmncc", .matrix), ("lmnss", .matrix), ("r_e", .matrix),
  ("r_o", .matrix), ("z_e", .matrix), ("z_o", .matrix), ("ru_e", .matrix), ("ru_o", .matrix), ("zu_e", .matrix),
  ("zu_o", .matrix), ("rv_e", .matrix), ("rv_o", .matrix), ("zv_e", .matrix), ("zv_o", .matrix), ("ruFull", .matrix),
  ("zuFull", .matrix), ("r12", .matrix), ("ru12", .matrix), ("zu12", .matrix), ("rs", .matrix), ("zs", .matrix),
  ("gsqrt", .matrix), ("guu", .matrix), ("guv", .matrix), ("gvv", .matrix), ("bsupu", .matrix), ("bsupv", .matrix),
  ("bsubu", .matrix), ("bsubv", .matrix), ("bsubvF", .matrix), ("total_pressure", .matrix), ("currv", .double)]

/-- the members written by `RemainingMetric::WriteTo`, `output_quantities.cc:208-218`, with the types of `output_quantities.h` -/
def remainingMetric : List (String × Kind) := [
  ("rv12", .matrix), ("zv12", .matrix), ("rs12", .matrix), ("zs12", .matrix), ("gsu", .matrix), ("gsv", .matrix)]

/-- the members written by `CylindricalComponentsOfB::WriteTo`, `output_quantities.cc:232-239`, with the types of `output_quantities.h` -/
def cylindricalComponentsOfB : List (String × Kind) := [
  ("b_r", .matrix), ("b_phi", .matrix), ("b_z", .matrix)]

/-- the members written by `BSubSHalf::WriteTo`, `output_quantities.cc:250-254`, with the types of `output_quantities.h` -/
def bSubSHalf : List (String × Kind) := [
  ("bsubs_half", .matrix)]

/-- the members written by `BSubSFull::WriteTo`, `output_quantities.cc:262-266`, with the types of `output_quantities.h` -/
def bSubSFull : List (String × Kind) := [
  ("bsubs_full", .matrix)]

/-- the members written by `CovariantBDerivatives::WriteTo`, `output_quantities.cc:274-282`, with the types of `output_quantities.h` -/
def covariantBDerivatives : List (String × Kind) := [
  ("bsubsu", .matrix), ("bsubsv", .matrix), ("bsubuv", .matrix), ("bsubvu", .matrix)]

/-- the members written by `JxBOutFileContents::WriteTo`, `output_quantities.cc:294-323`, with the types of `output_quantities.h` -/
def jxBOutFileContents : List (String × Kind) := [
  ("itheta", .matrix), ("izeta", .matrix), ("bdotk", .matrix), ("amaxfor", .doubles), ("aminfor", .doubles),
  ("avforce", .doubles), ("pprim", .doubles), ("jdotb", .doubles), ("bdotb", .doubles), ("bdotgradv", .doubles),
  ("jpar2", .doubles), ("jperp2", .doubles), ("phin", .doubles), ("jsupu3", .matrix), ("jsupv3", .matrix), ("jsups3", .matrix),
  ("bsupu3", .matrix), ("bsupv3", .matrix), ("jcrossb", .matrix), ("jxb_gradp", .matrix), ("jdotb_sqrtg", .matrix),
  ("sqrtg3", .matrix), ("bsubu3", .matrix), ("bsubv3", .matrix), ("bsubs3", .matrix)]

/-- the members written by `MercierStabilityIntermediateQuantities::WriteTo`, `output_quantities.cc:354-376`, with the types of `output_quantities.h` -/
def mercierStabilityIntermediateQuantities : List (String × Kind) := [
  ("s", .doubles), ("shear", .doubles), ("vpp", .doubles), ("d_pressure_d_s", .doubles), ("d_toroidal_current_d_s", .doubles),
  ("phip_realH", .doubles), ("phip_realF", .doubles), ("vp_real", .doubles), ("torcur", .doubles), ("gsqrt_full", .matrix),
  ("bdotj", .matrix), ("gpp", .matrix), ("b2", .matrix), ("tpp", .doubles), ("tbb", .doubles), ("tjb", .doubles),
  ("tjj", .doubles)]

/-- the members written by `MercierFileContents::WriteTo`, `output_quantities.cc:399-418`, with the types of `output_quantities.h` -/
def mercierFileContents : List (String × Kind) := [
  ("s", .doubles), ("toroidal_flux", .doubles), ("iota", .doubles), ("shear", .doubles), ("d_volume_d_s", .doubles),
  ("well", .doubles), ("toroidal_current", .doubles), ("d_toroidal_current_d_s", .doubles), ("pressure", .doubles),
  ("d_pressure_d_s", .doubles), ("DMerc", .doubles), ("Dshear", .doubles), ("Dwell", .doubles), ("Dcurr", .doubles),
  ("Dgeod", .doubles)]

/-- the members written by `Threed1FirstTableIntermediate::WriteTo`, `output_quantities.cc:439-462`, with the types of `output_quantities.h` -/
def threed1FirstTableIntermediate : List (String × Kind) := [
  ("tau", .matrix), ("beta_vol", .doubles), ("overr", .doubles), ("beta_axis", .double), ("presf", .doubles),
  ("phipf_loc", .doubles), ("phi1", .doubles), ("chi1", .doubles), ("chi", .doubles), ("bvcoH", .doubles), ("bucoH", .doubles),
  ("jcurv", .doubles), ("jcuru", .doubles), ("presgrad", .doubles), ("vpphi", .doubles), ("equif", .doubles),
  ("bucof", .doubles), ("bvcof", .doubles)]

/-- the members written by `Threed1FirstTable::WriteTo`, `output_quantities.cc:486-504`, with the types of `output_quantities.h` -/
def threed1FirstTable : List (String × Kind) := [
  ("s", .doubles), ("radial_force", .doubles), ("toroidal_flux", .doubles), ("iota", .doubles), ("avg_jsupu", .doubles),
  ("avg_jsupv", .doubles), ("d_volume_d_phi", .doubles), ("d_pressure_d_phi", .doubles), ("spectral_width", .doubles),
  ("pressure", .doubles), ("buco_full", .doubles), ("bvco_full", .doubles), ("j_dot_b", .doubles), ("b_dot_b", .doubles)]

/-- the members written by `Threed1GeometricAndMagneticQuantitiesIntermediate::WriteTo`, `output_quantities.cc:524-560`, with the types of `output_quantities.h` -/
def threed1GeometricAndMagneticQuantitiesIntermediate : List (String × Kind) := [
  ("anorm", .double), ("vnorm", .double), ("surf_area", .doubles), ("circumference_sum", .double), ("rcenin", .double),
  ("aminr2in", .double), ("bminz2in", .double), ("bminz2", .double), ("sump", .double), ("btor_vac", .doubles),
  ("btor1", .doubles), ("dbtor", .doubles), ("phat", .doubles), ("redge", .doubles), ("delphid_exact", .double),
  ("musubi", .double), ("rshaf1", .double), ("rshaf2", .double), ("rshaf", .double), ("fpsi0", .double), ("sumbtot", .double),
  ("sumbtor", .double), ("sumbpol", .double), ("sump20", .double), ("sump2", .double), ("jPS2", .doubles),
  ("jpar_perp_sum", .double), ("jparPS_perp_sum", .double), ("s2", .double), ("fac", .double), ("r3v", .doubles)]

/-- the members written by `Threed1GeometricAndMagneticQuantities::WriteTo`, `output_quantities.cc:599-643`, with the types of `output_quantities.h` -/
def threed1GeometricAndMagneticQuantities : List (String × Kind) := [
  ("toroidal_flux", .double), ("circum_p", .double), ("surf_area_p", .double), ("cross_area_p", .double), ("volume_p", .double),
  ("Rmajor_p", .double), ("Aminor_p", .double), ("aspect", .double), ("kappa_p", .double), ("rcen", .double),
  ("aminr1", .double), ("pavg", .double), ("factor", .double), ("b0", .double), ("rmax_surf", .double), ("rmin_surf", .double),
  ("zmax_surf", .double), ("bmin", .matrix), ("bmax", .matrix), ("waist", .doubles), ("height", .doubles), ("betapol", .double),
  ("betatot", .double), ("betator", .double), ("VolAvgB", .double), ("IonLarmor", .double), ("jpar_perp", .double),
  ("jparPS_perp", .double), ("toroidal_current", .double), ("rbtor", .double), ("rbtor0", .double), ("psi", .doubles),
  ("ygeo", .doubles), ("yinden", .doubles), ("yellip", .doubles), ("ytrian", .doubles), ("yshift", .doubles),
  ("loc_jpar_perp", .doubles), ("loc_jparPS_perp", .doubles)]

/-- the members written by `Threed1Volumetrics::WriteTo`, `output_quantities.cc:689-703`, with the types of `output_quantities.h` -/
def threed1Volumetrics : List (String × Kind) := [
  ("int_p", .double), ("avg_p", .double), ("int_bpol", .double), ("avg_bpol", .double), ("int_btor", .double),
  ("avg_btor", .double), ("int_modb", .double), ("avg_modb", .double), ("int_ekin", .double), ("avg_ekin", .double)]

/-- the members written by `Threed1AxisGeometry::WriteTo`, `output_quantities.cc:720-728`, with the types of `output_quantities.h` -/
def threed1AxisGeometry : List (String × Kind) := [
  ("raxis_symm", .doubles), ("zaxis_symm", .doubles), ("raxis_asym", .doubles), ("zaxis_asym", .doubles)]

/-- the members written by `Threed1Betas::WriteTo`, `output_quantities.cc:739-749`, with the types of `output_quantities.h` -/
def threed1Betas : List (String × Kind) := [
  ("betatot", .double), ("betapol", .double), ("betator", .double), ("rbtor", .double), ("betaxis", .double), ("betstr", .double)]

/-- the members written by `Threed1ShafranovIntegrals::WriteTo`, `output_quantities.cc:761-782`, with the types of `output_quantities.h` -/
def threed1ShafranovIntegrals : List (String × Kind) := [
  ("scaling_ratio", .double), ("r_lao", .double), ("f_lao", .double), ("f_geo", .double), ("smaleli", .double),
  ("betai", .double), ("musubi", .double), ("lambda", .double), ("s11", .double), ("s12", .double), ("s13", .double),
  ("s2", .double), ("s3", .double), ("delta1", .double), ("delta2", .double), ("delta3", .double)]

/-- the members written by `WOutFileContents::WriteTo`, `output_quantities.cc:804-930`, with the types of `output_quantities.h` -/
def wOutFileContents : List (String × Kind) := [
  ("version_", .double), ("signgs", .int), ("gamma", .double), ("pcurr_type", .str), ("pmass_type", .str), ("piota_type", .str),
  ("am", .doubles), ("ac", .doubles), ("ai", .doubles), ("am_aux_s", .doubles), ("am_aux_f", .doubles), ("ac_aux_s", .doubles),
  ("ac_aux_f", .doubles), ("ai_aux_s", .doubles), ("ai_aux_f", .doubles), ("nfp", .int), ("mpol", .int), ("ntor", .int),
  ("lasym", .bool), ("ns", .int), ("ftolv", .double), ("niter", .int), ("lfreeb", .bool), ("mgrid_file", .str),
  ("nextcur", .int), ("extcur", .doubles), ("mgrid_mode", .str), ("wb", .double), ("wp", .double), ("rmax_surf", .double),
  ("rmin_surf", .double), ("zmax_surf", .double), ("mnmax", .int), ("mnmax_nyq", .int), ("ier_flag", .int), ("aspect", .double),
  ("betatotal", .double), ("betapol", .double), ("betator", .double), ("betaxis", .double), ("b0", .double), ("rbtor0", .double),
  ("rbtor", .double), ("IonLarmor", .double), ("volavgB", .double), ("ctor", .double), ("Aminor_p", .double),
  ("Rmajor_p", .double), ("volume", .double), ("fsqr", .double), ("fsqz", .double), ("fsql", .double), ("iotaf", .doubles),
  ("q_factor", .doubles), ("presf", .doubles), ("phi", .doubles), ("phipf", .doubles), ("chi", .doubles), ("chipf", .doubles),
  ("jcuru", .doubles), ("jcurv", .doubles), ("iotas", .doubles), ("mass", .doubles), ("pres", .doubles), ("beta_vol", .doubles),
  ("buco", .doubles), ("bvco", .doubles), ("vp", .doubles), ("specw", .doubles), ("phips", .doubles), ("over_r", .doubles),
  ("jdotb", .doubles), ("bdotgradv", .doubles), ("DMerc", .doubles), ("DShear", .doubles), ("DWell", .doubles),
  ("DCurr", .doubles), ("DGeod", .doubles), ("equif", .doubles), ("curlabel", .strs), ("potvac", .doubles), ("xm", .ints),
  ("xn", .ints), ("xm_nyq", .ints), ("xn_nyq", .ints), ("raxis_cc", .doubles), ("zaxis_cs", .doubles), ("rmnc", .matrix),
  ("zmns", .matrix), ("lmns_full", .matrix), ("lmns", .matrix), ("gmnc", .matrix), ("bmnc", .matrix), ("bsubumnc", .matrix),
  ("bsubvmnc", .matrix), ("bsubsmns", .matrix), ("bsubsmns_full", .matrix), ("bsupumnc", .matrix), ("bsupvmnc", .matrix),
  ("currumnc", .matrix), ("currvmnc", .matrix), ("raxis_cs", .doubles), ("zaxis_cc", .doubles), ("rmns", .matrix),
  ("zmnc", .matrix), ("lmnc_full", .matrix), ("lmnc", .matrix), ("gmns", .matrix), ("bmns", .matrix), ("bsubumns", .matrix),
  ("bsubvmns", .matrix), ("bsubsmnc", .matrix), ("bsubsmnc_full", .matrix), ("bsupumns", .matrix), ("bsupvmns", .matrix),
  ("currumns", .matrix), ("currvmns", .matrix)]
/-- `WOutFileContents::LoadInto`, `output_quantities.cc:932-1141` -/
def woutSteps : List Step := [
  .version, .renamed "signgs" "sign_of_jacobian" .int, .member "gamma" .double, .member "pcurr_type" .str,
  .member "pmass_type" .str, .member "piota_type" .str, .member "am" .doubles, .member "ac" .doubles, .member "ai" .doubles,
  .member "am_aux_s" .doubles, .member "am_aux_f" .doubles, .member "ac_aux_s" .doubles, .member "ac_aux_f" .doubles,
  .member "ai_aux_s" .doubles, .member "ai_aux_f" .doubles, .member "nfp" .int, .member "mpol" .int, .member "ntor" .int,
  .member "lasym" .bool, .member "ns" .int, .member "ftolv" .double, .renamed "niter" "maximum_iterations" .int,
  .member "lfreeb" .bool, .member "mgrid_file" .str, .freeBoundary, .member "mgrid_mode" .str, .member "wb" .double,
  .member "wp" .double, .member "rmax_surf" .double, .member "rmin_surf" .double, .member "zmax_surf" .double,
  .member "mnmax" .int, .member "mnmax_nyq" .int, .member "ier_flag" .int, .member "aspect" .double,
  .renamed "betatotal" "betatot" .double, .member "betapol" .double, .member "betator" .double, .member "betaxis" .double,
  .member "b0" .double, .member "rbtor0" .double, .member "rbtor" .double, .member "IonLarmor" .double,
  .renamed "volavgB" "VolAvgB" .double, .member "ctor" .double, .member "Aminor_p" .double, .member "Rmajor_p" .double,
  .renamed "volume" "volume_p" .double, .member "fsqr" .double, .member "fsqz" .double, .member "fsql" .double,
  .renamed "iotaf" "iota_full" .doubles, .renamed "q_factor" "safety_factor" .doubles, .renamed "presf" "pressure_full" .doubles,
  .renamed "phi" "toroidal_flux" .doubles, .member "phipf" .doubles, .renamed "chi" "poloidal_flux" .doubles,
  .member "chipf" .doubles, .member "jcuru" .doubles, .member "jcurv" .doubles, .renamed "specw" "spectral_width" .doubles,
  .halfGrid, .member "jdotb" .doubles, .member "bdotgradv" .doubles, .member "DMerc" .doubles,
  .renamed "DShear" "Dshear" .doubles, .renamed "DWell" "Dwell" .doubles, .renamed "DCurr" "Dcurr" .doubles,
  .renamed "DGeod" "Dgeod" .doubles, .member "equif" .doubles, .member "curlabel" .strs, .member "potvac" .doubles,
  .member "xm" .ints, .member "xn" .ints, .member "xm_nyq" .ints, .member "xn_nyq" .ints, .renamed "raxis_cc" "raxis_c" .doubles,
  .renamed "zaxis_cs" "zaxis_s" .doubles, .turned "rmnc", .turned "zmns", .turned "lmns_full", .turnedPadded "lmns" "mnmax",
  .turnedPadded "gmnc" "mnmax_nyq", .turnedPadded "bmnc" "mnmax_nyq", .turnedPadded "bsubumnc" "mnmax_nyq",
  .turnedPadded "bsubvmnc" "mnmax_nyq", .turnedPadded "bsubsmns" "mnmax_nyq", .member "bsubsmns_full" .matrix,
  .turnedPadded "bsupumnc" "mnmax_nyq", .turnedPadded "bsupvmnc" "mnmax_nyq", .turnedIfThere "currumnc",
  .turnedIfThere "currvmnc", .renamed "raxis_cs" "raxis_s" .doubles, .renamed "zaxis_cc" "zaxis_c" .doubles, .turned "rmns",
  .turned "zmnc", .turned "lmnc_full", .turnedPadded "lmnc" "mnmax", .turnedPadded "gmns" "mnmax_nyq",
  .turnedPadded "bmns" "mnmax_nyq", .turnedPadded "bsubumns" "mnmax_nyq", .turnedPadded "bsubvmns" "mnmax_nyq",
  .turnedPadded "bsubsmnc" "mnmax_nyq", .member "bsubsmnc_full" .matrix, .turnedPadded "bsupumns" "mnmax_nyq",
  .turnedPadded "bsupvmns" "mnmax_nyq", .turnedIfThere "currumns", .turnedIfThere "currvmns"]

/-- `RemainingMetric::LoadInto`, `output_quantities.cc:220-230` -/
def remainingMetricSteps : List Step := [
  .member "rv12" .matrix, .member "zv12" .matrix, .member "rs12" .matrix, .member "zs12" .matrix, .member "gsu" .matrix,
  .member "gsv" .matrix]

/-- `CylindricalComponentsOfB::LoadInto`, `output_quantities.cc:241-248` -/
def cylindricalComponentsOfBSteps : List Step := [
  .member "b_r" .matrix, .member "b_phi" .matrix, .member "b_z" .matrix]

/-- `BSubSHalf::LoadInto`, `output_quantities.cc:256-260` -/
def bSubSHalfSteps : List Step := [
  .member "bsubs_half" .matrix]

/-- `BSubSFull::LoadInto`, `output_quantities.cc:268-272` -/
def bSubSFullSteps : List Step := [
  .member "bsubs_full" .matrix]

/-- `CovariantBDerivatives::LoadInto`, `output_quantities.cc:284-292` -/
def covariantBDerivativesSteps : List Step := [
  .member "bsubsu" .matrix, .member "bsubsv" .matrix, .member "bsubuv" .matrix, .member "bsubvu" .matrix]

/-- `JxBOutFileContents::LoadInto`, `output_quantities.cc:324-352` -/
def jxBOutFileContentsSteps : List Step := [
  .member "itheta" .matrix, .member "izeta" .matrix, .member "bdotk" .matrix, .member "amaxfor" .doubles,
  .member "aminfor" .doubles, .member "avforce" .doubles, .member "pprim" .doubles, .member "jdotb" .doubles,
  .member "bdotb" .doubles, .member "bdotgradv" .doubles, .member "jpar2" .doubles, .member "jperp2" .doubles,
  .member "phin" .doubles, .member "jsupu3" .matrix, .member "jsupv3" .matrix, .member "jsups3" .matrix,
  .member "bsupu3" .matrix, .member "bsupv3" .matrix, .member "jcrossb" .matrix, .member "jxb_gradp" .matrix,
  .member "jdotb_sqrtg" .matrix, .member "sqrtg3" .matrix, .member "bsubu3" .matrix, .member "bsubv3" .matrix,
  .member "bsubs3" .matrix]

/-- `MercierStabilityIntermediateQuantities::LoadInto`, `output_quantities.cc:377-397` -/
def mercierStabilityIntermediateQuantitiesSteps : List Step := [
  .member "s" .doubles, .member "shear" .doubles, .member "vpp" .doubles, .member "d_pressure_d_s" .doubles,
  .member "d_toroidal_current_d_s" .doubles, .member "phip_realH" .doubles, .member "phip_realF" .doubles,
  .member "vp_real" .doubles, .member "torcur" .doubles, .member "gsqrt_full" .matrix, .member "bdotj" .matrix,
  .member "gpp" .matrix, .member "b2" .matrix, .member "tpp" .doubles, .member "tbb" .doubles, .member "tjb" .doubles,
  .member "tjj" .doubles]

/-- `MercierFileContents::LoadInto`, `output_quantities.cc:419-437` -/
def mercierFileContentsSteps : List Step := [
  .member "s" .doubles, .member "toroidal_flux" .doubles, .member "iota" .doubles, .member "shear" .doubles,
  .member "d_volume_d_s" .doubles, .member "well" .doubles, .member "toroidal_current" .doubles,
  .member "d_toroidal_current_d_s" .doubles, .member "pressure" .doubles, .member "d_pressure_d_s" .doubles,
  .member "DMerc" .doubles, .member "Dshear" .doubles, .member "Dwell" .doubles, .member "Dcurr" .doubles,
  .member "Dgeod" .doubles]

/-- `Threed1FirstTableIntermediate::LoadInto`, `output_quantities.cc:463-484` -/
def threed1FirstTableIntermediateSteps : List Step := [
  .member "tau" .matrix, .member "beta_vol" .doubles, .member "overr" .doubles, .member "beta_axis" .double,
  .member "presf" .doubles, .member "phipf_loc" .doubles, .member "phi1" .doubles, .member "chi1" .doubles,
  .member "chi" .doubles, .member "bvcoH" .doubles, .member "bucoH" .doubles, .member "jcurv" .doubles, .member "jcuru" .doubles,
  .member "presgrad" .doubles, .member "vpphi" .doubles, .member "equif" .doubles, .member "bucof" .doubles,
  .member "bvcof" .doubles]

/-- `Threed1FirstTable::LoadInto`, `output_quantities.cc:505-522` -/
def threed1FirstTableSteps : List Step := [
  .member "s" .doubles, .member "radial_force" .doubles, .member "toroidal_flux" .doubles, .member "iota" .doubles,
  .member "avg_jsupu" .doubles, .member "avg_jsupv" .doubles, .member "d_volume_d_phi" .doubles,
  .member "d_pressure_d_phi" .doubles, .member "spectral_width" .doubles, .member "pressure" .doubles,
  .member "buco_full" .doubles, .member "bvco_full" .doubles, .member "j_dot_b" .doubles, .member "b_dot_b" .doubles]

/-- `Threed1GeometricAndMagneticQuantitiesIntermediate::LoadInto`, `output_quantities.cc:561-597` -/
def threed1GeometricAndMagneticQuantitiesIntermediateSteps : List Step := [
  .member "anorm" .double, .member "vnorm" .double, .member "surf_area" .doubles, .member "circumference_sum" .double,
  .member "rcenin" .double, .member "aminr2in" .double, .member "bminz2in" .double, .member "bminz2" .double,
  .member "sump" .double, .member "btor_vac" .doubles, .member "btor1" .doubles, .member "dbtor" .doubles,
  .member "phat" .doubles, .member "redge" .doubles, .member "delphid_exact" .double, .member "musubi" .double,
  .member "rshaf1" .double, .member "rshaf2" .double, .member "rshaf" .double, .member "fpsi0" .double,
  .member "sumbtot" .double, .member "sumbtor" .double, .member "sumbpol" .double, .member "sump20" .double,
  .member "sump2" .double, .member "jPS2" .doubles, .member "jpar_perp_sum" .double, .member "jparPS_perp_sum" .double,
  .member "s2" .double, .member "fac" .double, .member "r3v" .doubles]

/-- `Threed1GeometricAndMagneticQuantities::LoadInto`, `output_quantities.cc:644-687` -/
def threed1GeometricAndMagneticQuantitiesSteps : List Step := [
  .member "toroidal_flux" .double, .member "circum_p" .double, .member "surf_area_p" .double, .member "cross_area_p" .double,
  .member "volume_p" .double, .member "Rmajor_p" .double, .member "Aminor_p" .double, .member "aspect" .double,
  .member "kappa_p" .double, .member "rcen" .double, .member "aminr1" .double, .member "pavg" .double, .member "factor" .double,
  .member "b0" .double, .member "rmax_surf" .double, .member "rmin_surf" .double, .member "zmax_surf" .double,
  .member "bmin" .matrix, .member "bmax" .matrix, .member "waist" .doubles, .member "height" .doubles, .member "betapol" .double,
  .member "betatot" .double, .member "betator" .double, .member "VolAvgB" .double, .member "IonLarmor" .double,
  .member "jpar_perp" .double, .member "jparPS_perp" .double, .member "toroidal_current" .double, .member "rbtor" .double,
  .member "rbtor0" .double, .member "psi" .doubles, .member "ygeo" .doubles, .member "yinden" .doubles,
  .member "yellip" .doubles, .member "ytrian" .doubles, .member "yshift" .doubles, .member "loc_jpar_perp" .doubles,
  .member "loc_jparPS_perp" .doubles]

/-- `Threed1Volumetrics::LoadInto`, `output_quantities.cc:705-718` -/
def threed1VolumetricsSteps : List Step := [
  .member "int_p" .double, .member "avg_p" .double, .member "int_bpol" .double, .member "avg_bpol" .double,
  .member "int_btor" .double, .member "avg_btor" .double, .member "int_modb" .double, .member "avg_modb" .double,
  .member "int_ekin" .double, .member "avg_ekin" .double]

/-- `Threed1AxisGeometry::LoadInto`, `output_quantities.cc:730-737` -/
def threed1AxisGeometrySteps : List Step := [
  .member "raxis_symm" .doubles, .member "zaxis_symm" .doubles, .member "raxis_asym" .doubles, .member "zaxis_asym" .doubles]

/-- `Threed1Betas::LoadInto`, `output_quantities.cc:750-759` -/
def threed1BetasSteps : List Step := [
  .member "betatot" .double, .member "betapol" .double, .member "betator" .double, .member "rbtor" .double,
  .member "betaxis" .double, .member "betstr" .double]

/-- `Threed1ShafranovIntegrals::LoadInto`, `output_quantities.cc:783-802` -/
def threed1ShafranovIntegralsSteps : List Step := [
  .member "scaling_ratio" .double, .member "r_lao" .double, .member "f_lao" .double, .member "f_geo" .double,
  .member "smaleli" .double, .member "betai" .double, .member "musubi" .double, .member "lambda" .double, .member "s11" .double,
  .member "s12" .double, .member "s13" .double, .member "s2" .double, .member "s3" .double, .member "delta1" .double,
  .member "delta2" .double, .member "delta3" .double]

/-- `VmecInternalResults::LoadInto`, `output_quantities.cc:125-206`: `chipH` and `currH` may be missing -/
def internalSteps : List Step := vmecInternalResults.map fun p =>
  if p.1 = "chipH" ∨ p.1 = "currH" then .orZeros p.1 "phipH" else .member p.1 p.2

/-- the classes in the order of `Save` and `Load`, `output_quantities.cc:1152-1238` and `1257-1361`: the key of the group, the members
    written and the statements of `LoadInto`. -/
def classes : List (String × List (String × Kind) × List Step) := [
  ("/vmec_internal_results", vmecInternalResults, internalSteps),
  ("/remaining_metric", remainingMetric, remainingMetricSteps),
  ("/cylindrical_components_of_b", cylindricalComponentsOfB, cylindricalComponentsOfBSteps),
  ("/bsubs_half", bSubSHalf, bSubSHalfSteps),
  ("/bsubs_full", bSubSFull, bSubSFullSteps),
  ("/covariant_b_derivatives", covariantBDerivatives, covariantBDerivativesSteps),
  ("/jxbout", jxBOutFileContents, jxBOutFileContentsSteps),
  ("/mercier_intermediate", mercierStabilityIntermediateQuantities, mercierStabilityIntermediateQuantitiesSteps),
  ("/mercier", mercierFileContents, mercierFileContentsSteps),
  ("/threed1_first_table_intermediate", threed1FirstTableIntermediate, threed1FirstTableIntermediateSteps),
  ("/threed1_first_table", threed1FirstTable, threed1FirstTableSteps),
  ("/threed1_geometric_and_magnetic_quantities_intermediate", threed1GeometricAndMagneticQuantitiesIntermediate, threed1GeometricAndMagneticQuantitiesIntermediateSteps),
  ("/threed1_geometric_and_magnetic_quantities", threed1GeometricAndMagneticQuantities, threed1GeometricAndMagneticQuantitiesSteps),
  ("/threed1_volumetrics", threed1Volumetrics, threed1VolumetricsSteps),
  ("/threed1_axis_geometry", threed1AxisGeometry, threed1AxisGeometrySteps),
  ("/threed1_betas", threed1Betas, threed1BetasSteps),
  ("/threed1_shafranov_integrals", threed1ShafranovIntegrals, threed1ShafranovIntegralsSteps),
  ("/wout", wOutFileContents, woutSteps)]

/-- the classes written one after the other; `o` gives the object of each key -/
def saveAll (o : String → Obj) : List (String × List (String × Kind) × List Step) → File → Outcome File
  | [], f => .ok f
  | (g, t, _) :: cs, f => do
    let f ← writeTo g t (o g) f
    saveAll o cs f

/-- `OutputQuantities::Save` without the input, `output_quantities.cc:1146-1238` -/
def save (o : String → Obj) : Outcome File := saveAll o classes emptyFile

def loadAll (stod : String → Outcome D) (f : File) :
    List (String × List (String × Kind) × List Step) → (String → Obj) → Outcome (String → Obj)
  | [], m => .ok m
  | (g, _, ss) :: cs, m => do
    let x ← run stod (f.data g) ss (m g)
    loadAll stod f cs fun g' => if g' = g then x else m g'

/-- `OutputQuantities::Load` without the input, `output_quantities.cc:1250-1362`; `m` is the new object, of which the numbers are not
    initialised -/
def load (stod : String → Outcome D) (f : File) (m : String → Obj) : Outcome (String → Obj) := loadAll stod f classes m

end Verif.OutputIo
