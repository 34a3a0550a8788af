import Verif.Indata.Model

/-!
# Model of the HDF5 reader and writer of the input

`VmecINDATA::WriteTo` and `VmecINDATA::LoadInto` (`common/vmec_indata/vmec_indata.cc:258-486`) with the helpers of
`util/hdf5_io/hdf5_io.{h,cc}`.

A file is a table of datasets.  The library is represented by what the helpers ask of it: `createDataSet` on a new name, `write`
of the whole buffer, `openDataSet` (which throws if the name does not exist), `getSimpleExtentDims` (which writes one number per
dimension of the dataset, hence nothing for a scalar) and `read` of all entries.  Conversions between integer, floating-point and
text datasets are not modelled: a dataset of another element type is reported as `abort`.
-/
namespace Verif.Indata
open Verif

/-- a dataset -/
inductive Dataset where
  | bool (b : Bool)
  | int (i : Int)
  | double (x : D)
  | str (s : String)
  | ints (v : List Int)
  | doubles (v : List D)
  | matrix (a : Mat D)

/-- a file: the datasets of the group `/indata` by name -/
abbrev File := String → Option Dataset

/-- variable-length strings end at the first NUL character -/
def cString (s : String) : String := String.ofList (s.toList.takeWhile fun c => c ≠ Char.ofNat 0)

/-- `openDataSet` -/
def openDataSet (f : File) (name : String) : Outcome Dataset :=
  match f name with
  | some x => .ok x
  | none => .throws "dataset does not exist"

/-- `ReadH5Dataset(bool&)`, `hdf5_io.h:108-122` -/
def loadBool (f : File) (name : String) : Outcome Bool := do
  let x ← openDataSet f name
  match x with
  | .bool b => pure b
  | .ints _ | .doubles _ | .matrix _ => .ub "array read into a scalar"
  | _ => .abort "conversion not modelled"

/-- `ReadH5Dataset(int&)`, `hdf5_io.h:108-122` -/
def loadInt (f : File) (name : String) : Outcome Int := do
  let x ← openDataSet f name
  match x with
  | .int i => pure i
  | .ints _ | .doubles _ | .matrix _ => .ub "array read into a scalar"
  | _ => .abort "conversion not modelled"

/-- `ReadH5Dataset(double&)`, `hdf5_io.h:108-122` -/
def loadDouble (f : File) (name : String) : Outcome D := do
  let x ← openDataSet f name
  match x with
  | .double x => pure x
  | .ints _ | .doubles _ | .matrix _ => .ub "array read into a scalar"
  | _ => .abort "conversion not modelled"

/-- `ReadH5Dataset(std::string&)`, `hdf5_io.cc:76-81` -/
def loadString (f : File) (name : String) : Outcome String := do
  let x ← openDataSet f name
  match x with
  | .str s => pure s
  | _ => .abort "conversion not modelled"

/-- `ReadH5Dataset(Eigen::VectorXi&)`, `hdf5_io.h:84-103`: `size` is not set if the dataset is a scalar -/
def loadInts (f : File) (name : String) : Outcome (List Int) := do
  let x ← openDataSet f name
  match x with
  | .ints v => pure v
  | .matrix _ => .ub "two dimensions written to one number"
  | .doubles _ => .abort "conversion not modelled"
  | _ => .ub "size of a scalar dataset"

/-- `ReadH5Dataset(Eigen::VectorXd&)`, `hdf5_io.h:84-103`: `size` is not set if the dataset is a scalar -/
def loadDoubles (f : File) (name : String) : Outcome (List D) := do
  let x ← openDataSet f name
  match x with
  | .doubles v => pure v
  | .matrix _ => .ub "two dimensions written to one number"
  | .ints _ => .abort "conversion not modelled"
  | _ => .ub "size of a scalar dataset"

/-- `ReadH5Dataset(RowMatrixXd&)`, `hdf5_io.cc:49-60`: `dims` is not set if the dataset has fewer dimensions -/
def loadMatrix (f : File) (name : String) : Outcome (Mat D) := do
  let x ← openDataSet f name
  match x with
  | .matrix a => pure a
  | _ => .ub "size of a dataset with fewer than two dimensions"

/-- the unconditional part of `WriteTo`, `vmec_indata.cc:259-313` and `318-321` -/
def plainDatasets (d : Indata) : List (String × Dataset) := [
  ("lasym", .bool d.lasym),
  ("nfp", .int d.nfp),
  ("mpol", .int d.mpol),
  ("ntor", .int d.ntor),
  ("mpol_geometry", .int d.mpol_geometry),
  ("ntor_geometry", .int d.ntor_geometry),
  ("ntheta", .int d.ntheta),
  ("nzeta", .int d.nzeta),
  ("phiedge", .double d.phiedge),
  ("ncurr", .int d.ncurr),
  ("pmass_type", .str (cString d.pmass_type)),
  ("pres_scale", .double d.pres_scale),
  ("gamma", .double d.gamma),
  ("spres_ped", .double d.spres_ped),
  ("piota_type", .str (cString d.piota_type)),
  ("pcurr_type", .str (cString d.pcurr_type)),
  ("curtor", .double d.curtor),
  ("bloat", .double d.bloat),
  ("lfreeb", .bool d.lfreeb),
  ("mgrid_file", .str (cString d.mgrid_file)),
  ("nvacskip", .int d.nvacskip),
  ("free_boundary_method", .str (cString d.free_boundary_method.toString)),
  ("iteration_style", .str (cString d.iteration_style.toString)),
  ("nstep", .int d.nstep),
  ("delt", .double d.delt),
  ("tcon0", .double d.tcon0),
  ("lforbal", .bool d.lforbal),
  ("return_outputs_even_if_not_converged", .bool d.return_outputs_even_if_not_converged),
  ("ns_array", .ints d.ns_array),
  ("ftol_array", .doubles d.ftol_array),
  ("niter_array", .ints d.niter_array),
  ("am", .doubles d.am),
  ("am_aux_s", .doubles d.am_aux_s),
  ("am_aux_f", .doubles d.am_aux_f),
  ("ai", .doubles d.ai),
  ("ai_aux_s", .doubles d.ai_aux_s),
  ("ai_aux_f", .doubles d.ai_aux_f),
  ("ac", .doubles d.ac),
  ("ac_aux_s", .doubles d.ac_aux_s),
  ("ac_aux_f", .doubles d.ac_aux_f),
  ("extcur", .doubles d.extcur),
  ("aphi", .doubles d.aphi),
  ("raxis_c", .doubles d.raxis_c),
  ("zaxis_s", .doubles d.zaxis_s),
  ("rbc", .matrix d.rbc),
  ("zbs", .matrix d.zbs)]

/-- `Eigen::DenseBase::value()` of a matrix, see `eigenValue` -/
def eigenValueMat (a : Mat D) : Outcome D := a.get 0 0

/-- the asymmetric part of `WriteTo`, `vmec_indata.cc:314-317`, `322-326`: `->value()` is applied to the vector and the matrix that
    the optional holds, not to the optional, and yields a number -/
def asymDatasets (d : Indata) : Outcome (List (String × Dataset)) :=
  if d.lasym then do
    let rs ← deref d.raxis_s
    let rs ← eigenValue rs
    let zc ← deref d.zaxis_c
    let zc ← eigenValue zc
    let bs ← deref d.rbs
    let bs ← eigenValueMat bs
    let bc ← deref d.zbc
    let bc ← eigenValueMat bc
    pure [("raxis_s", .double rs), ("zaxis_c", .double zc), ("rbs", .double bs), ("zbc", .double bc)]
  else pure []

/-- `VmecINDATA::WriteTo` into a file without the group `/indata`, `vmec_indata.cc:258-329` -/
def writeTo (d : Indata) : Outcome File := do
  let rest ← asymDatasets d
  pure fun k => (plainDatasets d ++ rest).lookup k

/-- a member that older files do not have, `vmec_indata.cc:344-349`: the object keeps its value -/
def loadIntIfPresent (f : File) (name : String) (old : Int) : Outcome Int :=
  if (f name).isSome then loadInt f name else pure old

/-- `vmec_indata.cc:338-351` -/
def loadResolution (f : File) (m : Indata) : Outcome Indata := do
  let lasym ← loadBool f "lasym"
  let nfp ← loadInt f "nfp"
  let mpol ← loadInt f "mpol"
  let ntor ← loadInt f "ntor"
  let mpol_geometry ← loadIntIfPresent f "mpol_geometry" m.mpol_geometry
  let ntor_geometry ← loadIntIfPresent f "ntor_geometry" m.ntor_geometry
  let ntheta ← loadInt f "ntheta"
  let nzeta ← loadInt f "nzeta"
  pure { m with lasym, nfp, mpol, ntor, mpol_geometry, ntor_geometry, ntheta, nzeta }

/-- `vmec_indata.cc:352-364` -/
def loadScalars (f : File) (m : Indata) : Outcome Indata := do
  let phiedge ← loadDouble f "phiedge"
  let ncurr ← loadInt f "ncurr"
  let pmass_type ← loadString f "pmass_type"
  let pres_scale ← loadDouble f "pres_scale"
  let gamma ← loadDouble f "gamma"
  let spres_ped ← loadDouble f "spres_ped"
  let piota_type ← loadString f "piota_type"
  let pcurr_type ← loadString f "pcurr_type"
  let curtor ← loadDouble f "curtor"
  let bloat ← loadDouble f "bloat"
  let lfreeb ← loadBool f "lfreeb"
  let mgrid_file ← loadString f "mgrid_file"
  let nvacskip ← loadInt f "nvacskip"
  pure { m with phiedge, ncurr, pmass_type, pres_scale, gamma, spres_ped, piota_type, pcurr_type, curtor, bloat, lfreeb, mgrid_file, nvacskip }

/-- `vmec_indata.cc:366-373` -/
def loadMethod (f : File) : Outcome FreeBoundaryMethod := do
  let s ← loadString f "free_boundary_method"
  freeBoundaryMethodFromString s

/-- `vmec_indata.cc:378-391` -/
def loadStyle (f : File) : Outcome IterationStyle :=
  if (f "iteration_style").isSome then do
    let s ← loadString f "iteration_style"
    iterationStyleFromString s
  else pure .VMEC_8_52

/-- `vmec_indata.cc:399-405` -/
def loadReturnOutputs (f : File) : Outcome Bool :=
  if (f "return_outputs_even_if_not_converged").isSome then loadBool f "return_outputs_even_if_not_converged" else pure false

/-- `vmec_indata.cc:366-405` -/
def loadControl (f : File) (m : Indata) : Outcome Indata := do
  let free_boundary_method ← loadMethod f
  let iteration_style ← loadStyle f
  let nstep ← loadInt f "nstep"
  let delt ← loadDouble f "delt"
  let tcon0 ← loadDouble f "tcon0"
  let lforbal ← loadBool f "lforbal"
  let return_outputs_even_if_not_converged ← loadReturnOutputs f
  pure { m with free_boundary_method, iteration_style, nstep, delt, tcon0, lforbal, return_outputs_even_if_not_converged }

/-- `vmec_indata.cc:408-423` -/
def loadArrays (f : File) (m : Indata) : Outcome Indata := do
  let ns_array ← loadInts f "ns_array"
  let ftol_array ← loadDoubles f "ftol_array"
  let niter_array ← loadInts f "niter_array"
  let am ← loadDoubles f "am"
  let am_aux_s ← loadDoubles f "am_aux_s"
  let am_aux_f ← loadDoubles f "am_aux_f"
  let ai ← loadDoubles f "ai"
  let ai_aux_s ← loadDoubles f "ai_aux_s"
  let ai_aux_f ← loadDoubles f "ai_aux_f"
  let ac ← loadDoubles f "ac"
  let ac_aux_s ← loadDoubles f "ac_aux_s"
  let ac_aux_f ← loadDoubles f "ac_aux_f"
  let extcur ← loadDoubles f "extcur"
  let aphi ← loadDoubles f "aphi"
  let raxis_c ← loadDoubles f "raxis_c"
  let zaxis_s ← loadDoubles f "zaxis_s"
  pure { m with ns_array, ftol_array, niter_array, am, am_aux_s, am_aux_f, ai, ai_aux_s, ai_aux_f, ac, ac_aux_s, ac_aux_f, extcur, aphi, raxis_c, zaxis_s }

/-- `vmec_indata.cc:424-427`: the arrays are only replaced for an asymmetric input -/
def loadAsymAxis (f : File) (m : Indata) : Outcome Indata :=
  if m.lasym then do
    let rs ← loadDoubles f "raxis_s"
    let zc ← loadDoubles f "zaxis_c"
    pure { m with raxis_s := some rs, zaxis_c := some zc }
  else pure m

/-- a boundary array and its two checks, `vmec_indata.cc:436-446` -/
def loadBoundary (f : File) (name : String) (m : Indata) : Outcome (Mat D) := do
  let a ← loadMatrix f name
  reject (a.rows ≠ m.mpol) name
  reject (a.cols ≠ 2 * m.ntor + 1) name
  pure a

/-- `vmec_indata.cc:460-483` -/
def loadAsymBoundary (f : File) (m : Indata) : Outcome Indata :=
  if m.lasym then do
    let bs ← loadBoundary f "rbs" m
    let bc ← loadBoundary f "zbc" m
    pure { m with rbs := some bs, zbc := some bc }
  else pure m

/-- `VmecINDATA::LoadInto`, `vmec_indata.cc:334-486`; the object is passed and returned -/
def loadInto (m : Indata) (f : File) : Outcome Indata := do
  let m ← loadResolution f m
  let m ← loadScalars f m
  let m ← loadControl f m
  let m ← loadArrays f m
  let m ← loadAsymAxis f m
  let rbc ← loadBoundary f "rbc" m
  let zbs ← loadBoundary f "zbs" m
  loadAsymBoundary f { m with rbc, zbs }

end Verif.Indata
