import Verif.Common.Mem
import Verif.Resize.Model

/-!
# Model of the input conversions of `src/vmecpp/_util.py`

Python integers are unbounded. An exception is `status`.
-/
namespace Verif.PyInput
open Verif Verif.Resize

variable {α : Type} [Zero α] [DecidableEq α]

/-- `{"m": m, "n": n, "value": value}` (the mode numbers are taken to be integers already) -/
structure Entry (α : Type) where
  m : Int
  n : Int
  value : α
  deriving DecidableEq, Repr

/-- `dense_to_sparse_coefficients`, `_util.py:314-351`; `np.nonzero` lists the nonzero elements row by row -/
def denseToSparse (c : Mat α) : Outcome (List (Entry α)) :=
  if c.rows = 0 ∧ c.cols = 0 then .ok []
  else if (c.cols - 1) % 2 ≠ 0 then .status "assert"
  else
    let ntor := (c.cols - 1) / 2
    .ok ((irange 0 c.rows).flatMap (fun m => (irange 0 c.cols).filterMap (fun col =>
      if c.val m col ≠ 0 then some ⟨m, col - ntor, c.val m col⟩ else none)))

/-- body of the loop of `sparse_to_dense_coefficients`, `_util.py:379-394` -/
def sparseStep (mpol ntor : Int) (d : Mat α) (e : Entry α) : Outcome (Mat α) :=
  let col_idx := e.n + ntor
  if (0 ≤ e.m ∧ e.m < mpol) ∧ 0 ≤ col_idx ∧ col_idx < d.cols then d.set e.m col_idx e.value
  else .status "Index out of bounds when parsing sparse coefficient array"

/-- `np.zeros((r, c))`: a negative dimension is an exception -/
def npZeros (r c : Int) : Outcome (Mat α) :=
  if 0 ≤ r ∧ 0 ≤ c then .ok ⟨r, c, fun _ _ => 0⟩ else .status "negative dimensions are not allowed"

/-- `sparse_to_dense_coefficients`, `_util.py:354-395` -/
def sparseToDense (l : List (Entry α)) (mpol ntor : Int) : Outcome (Mat α) := do
  let d ← npZeros mpol (2 * ntor + 1)
  l.foldlM (sparseStep mpol ntor) d

/-- `sparse_to_dense_coefficients_implicit`, `_util.py:398-414`, for a list (a dense array is returned as is) -/
def sparseToDenseImplicit (l : List (Entry α)) : Outcome (Mat α) :=
  let r := l.foldl (fun (r : Int × Int) e => (max r.1 e.m, max r.2 |e.n|)) (0, 0)
  sparseToDense l (r.1 + 1) r.2

/-- what the validation of `VmecInput` makes of a sparse boundary field: `BeforeValidator`,
    `__init__.py:58-62`, then `_validate_fourier_coefficients_shapes`, `__init__.py:504-532` -/
def readField (l : List (Entry α)) (mpol ntor : Int) : Outcome (Mat α) := do
  let d ← sparseToDenseImplicit l
  pyField2d (some d) mpol ntor

/-! ## JSON to INDATA -/

/-- values of the input file that occur -/
inductive JVal (α : Type) where
  | null
  | bool (b : Bool)
  | int (i : Int)
  | num (x : α)
  | str (s : String)
  | ints (l : List Int)
  | nums (l : List α)
  | coeffs (l : List (Entry α))
  deriving DecidableEq, Repr

/-- the parsed JSON object -/
abbrev JDict (α : Type) := String → Option (JVal α)

/-- one line of the namelist: name and value; the text formatting is not modelled -/
inductive Line (α : Type) where
  | assign (name : String) (v : JVal α)
  | element (name : String) (i j : Int) (v : α)
  deriving DecidableEq, Repr

/-- `_bool_to_namelist`, `_int_to_namelist`, `_float_to_namelist`, `_string_to_namelist`, `_util.py:246-273`
    (a value of another type, which would be printed in its own format or raise, is passed on as it is) -/
def scalarLine (name : String) (d : JDict α) : List (Line α) :=
  match d name with
  | none => []
  | some v => [.assign name v]

/-- `_int_array_to_namelist`, `_float_array_to_namelist`, `_util.py:276-297` -/
def arrayLine (name : String) (d : JDict α) : List (Line α) :=
  match d name with
  | some (.ints l) => if l.length > 0 then [.assign name (.ints l)] else []
  | some (.nums l) => if l.length > 0 then [.assign name (.nums l)] else []
  | _ => []

/-- `_fourier_coefficients_to_namelist`, `_util.py:300-313` -/
def coeffLines (name : String) (d : JDict α) : List (Line α) :=
  match d name with
  | some (.coeffs l) => l.map (fun e => .element name e.n e.m e.value)
  | _ => []

/-- which of the formatting functions is called -/
inductive Kind where
  | scalar | array | coeffs
  deriving DecidableEq, Repr

/-- the calls of `vmecpp_json_to_indata` in order, `_util.py:177-239` -/
def calls : List (Kind × String) :=
  [(.scalar, "lasym"), (.scalar, "nfp"), (.scalar, "mpol"), (.scalar, "ntor"), (.scalar, "ntheta"), (.scalar, "nzeta"),
   (.array, "ns_array"), (.array, "ftol_array"), (.array, "niter_array"),
   (.scalar, "delt"), (.scalar, "tcon0"), (.array, "aphi"), (.scalar, "lforbal"),
   (.scalar, "nstep"), (.scalar, "phiedge"),
   (.scalar, "pmass_type"), (.array, "am"), (.array, "am_aux_s"), (.array, "am_aux_f"),
   (.scalar, "pres_scale"), (.scalar, "gamma"), (.scalar, "spres_ped"), (.scalar, "ncurr"),
   (.scalar, "piota_type"), (.array, "ai"), (.array, "ai_aux_s"), (.array, "ai_aux_f"),
   (.scalar, "pcurr_type"), (.array, "ac"), (.array, "ac_aux_s"), (.array, "ac_aux_f"),
   (.scalar, "curtor"), (.scalar, "bloat"),
   (.scalar, "lfreeb"), (.scalar, "mgrid_file"), (.array, "extcur"), (.scalar, "nvacskip"),
   (.array, "raxis_cc"), (.array, "zaxis_cs"), (.array, "raxis_cs"), (.array, "zaxis_cc"),
   (.coeffs, "rbc"), (.coeffs, "zbs"), (.coeffs, "rbs"), (.coeffs, "zbc")]

/-- one call -/
def callLines (d : JDict α) (c : Kind × String) : List (Line α) :=
  match c.1 with
  | .scalar => scalarLine c.2 d
  | .array => arrayLine c.2 d
  | .coeffs => coeffLines c.2 d

/-- `vmecpp_json_to_indata`, `_util.py:171-243`; comment lines dropped -/
def jsonToIndata (d : JDict α) : List (Line α) := calls.flatMap (callLines d)

end Verif.PyInput
