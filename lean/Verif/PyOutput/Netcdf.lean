import Verif.Common.Outcome
import Mathlib.Data.List.Basic

/-!
# Model of saving and loading a `wout` file in Python

`src/vmecpp/__init__.py`: field types 67-80 and 107-114, `VmecWOut` 876-900, 1026-1035, 1250-1260, `VmecWOut._save_to_netcdf3` 1433-1608, `VmecWOut.from_wout_file` 1678-1741;
`src/vmecpp/_util.py:434-441` (`right_pad`).

* A double is a value of an arbitrary type with conversions from and to integers and the NetCDF fill value (`Dbl`), so NaN and infinities are included.
* `netCDF4` is modelled by what its documentation says: a dimension of size 0 is the unlimited dimension and `NETCDF3_CLASSIC` allows one of them; a variable is filled with the fill value when it is
  created; `v[:n] = x` fails if a fixed dimension is shorter than `n` and extends the unlimited dimension; integers are stored with 32 bits, modulo `2^32`.  Temporary file and rename (1401-1431) are not
  modelled.  Two-dimensional variables whose shape differs from that of their dimensions, and strings for a dimension of size 0, have the outcome `status "not modelled"`.
* Characters are code points, a string is a list of them.  The warning for undecodable text is not modelled.
* Pydantic is modelled by the validators and serializers named at the fields and by the type conversions `int`, `float`, `str`, array; `jaxtyping` checks the number type.  Integral doubles for an integer
  field, which pydantic accepts, are rejected here.  Fields that are not declared (`extra="allow"`) are not validated and not modelled.
-/
namespace Verif.PyOutput
open Verif

/-- doubles -/
structure Dbl where
  F : Type
  ofInt : Int → F
  toInt : F → Int
  fill : F
  zero : F
  nan : F
  /-- comparison `x <= 8.0` -/
  le8 : F → Bool

/-- an element of an array -/
inductive Num (F : Type) where
  | i (n : Int)
  | f (x : F)

/-- a numpy array of integers or doubles -/
structure Arr (F : Type) where
  isInt : Bool
  shape : List ℕ
  get : List ℕ → Num F

/-- a Python value of a field; `other` is any type that is not listed -/
inductive PVal (F : Type) where
  | none
  | bool (b : Bool)
  | int (n : Int)
  | float (x : F)
  | str (s : List ℕ)
  | arr (a : Arr F)
  | other

/-- the declared type of a field with its serializers and validators.
    `bool`: `PlainSerializer(int)`, `BeforeValidator(bool)`, 876-900; `intAsFloat`: 67-80; `intArr`: 1026-1033; `aux`: 107-114 with the pad value; `extcur`: 1250-1260; `arr`, `optArr`: arrays of
    doubles with and without `| None` -/
inductive FKind (F : Type) where
  | bool
  | int
  | float
  | str
  | arr
  | optArr
  | intAsFloat
  | intArr
  | aux (pad : F)
  | extcur

/-- a field of `VmecWOut`: name in the file, type, `max_length` of the first annotation, names of the dimensions of the array type (tokens of `dim_str`) -/
structure Field (F : Type) where
  name : String
  kind : FKind F
  maxLen : Option ℕ
  annot : Option (List String)
  val : PVal F

/-- a variable of the file -/
inductive Var (F : Type) where
  | chars (dim : String) (bytes : List ℕ)
  | nums (dims : List String) (isInt : Bool) (data : List ℕ → Num F)

/-- a NetCDF3 file: sizes of the dimensions (for the unlimited dimension the present one), the unlimited dimension, variables in the order of creation -/
structure NcFile (F : Type) where
  dims : String → Option ℕ
  unlim : Option String
  vars : List (String × Var F)

variable (D : Dbl)

/-! ## saving -/

/-- the field as dumped by `model_dump(by_alias=True)`, 1452: serializers 67-74, 878, 1253-1258 -/
def dump (k : FKind D.F) (v : PVal D.F) : PVal D.F :=
  match k, v with
  | .bool, .bool b => .int (if b then 1 else 0)
  | .intAsFloat, .arr a => .arr { isInt := false, shape := a.shape, get := fun i => match a.get i with | .i n => .f (D.ofInt n) | .f x => .f x }
  | .extcur, .arr a => if a.shape = [0] then .float D.fill else .arr a
  | _, v => v

/-- `f"dim_{n:05d}"`, 1503 and 1525 -/
def dimDefault (n : ℕ) : String :=
  let t := toString n
  "dim_" ++ String.ofList (List.replicate (5 - t.length) '0') ++ t

/-- `lstrip("_")` and `map_dimension_names`, 1445-1448 and 1559-1574 -/
def dimName (token : String) : String :=
  let t := String.ofList (token.toList.dropWhile (· = '_'))
  if t = "ntor_plus_1" then "n_tor" else if t = "n_surfaces" then "radius" else t

/-- `shape_string`, 1522-1578; `zip(..., strict=True)` raises `ValueError` -/
def shapeString (annot : Option (List String)) (shape : List ℕ) : Outcome (List String) :=
  match annot with
  | none => .ok (shape.map dimDefault)
  | some tokens => if tokens.length = shape.length then .ok (tokens.map dimName) else .throws "ValueError"

/-- `fnc.createDimension(name, size)` of `netCDF4` -/
def NcFile.createDimension (f : NcFile D.F) (name : String) (size : ℕ) : Outcome (NcFile D.F) :=
  if size = 0 then
    if f.unlim.isSome then .throws "NC_UNLIMITED size already in use"
    else .ok { f with dims := fun n => if n = name then some 0 else f.dims n, unlim := some name }
  else .ok { f with dims := fun n => if n = name then some size else f.dims n }

/-- `if dim_name not in fnc.dimensions: fnc.createDimension(...)`, 1505-1506 and 1580-1581 -/
def NcFile.ensure (f : NcFile D.F) (name : String) (size : ℕ) : Outcome (NcFile D.F) :=
  match f.dims name with
  | some _ => .ok f
  | none => f.createDimension D name size

/-- the loop 1577-1581 -/
def NcFile.ensureAll (f : NcFile D.F) : List (String × ℕ) → Outcome (NcFile D.F)
  | [] => .ok f
  | (n, s) :: r => (f.ensure D n s).bind fun f => f.ensureAll r

/-- `fnc.createVariable(name, ...)` with the assignment of its contents -/
def NcFile.create (f : NcFile D.F) (name : String) (v : Var D.F) : Outcome (NcFile D.F) :=
  if f.vars.any (·.1 = name) then .throws "String match to name in use" else .ok { f with vars := f.vars ++ [(name, v)] }

/-- the value that 32 bits hold -/
def wrap32 (n : Int) : Int := (n + 2 ^ 31) % 2 ^ 32 - 2 ^ 31
/-- conversion to the type of the variable -/
def stored (x : Num D.F) : Num D.F := match x with | .i n => .i (wrap32 n) | .f x => .f x
/-- the fill value of a variable -/
def fillOf (isInt : Bool) : Num D.F := if isInt then .i (-2147483647) else .f D.fill

/-- contents of a variable with one dimension, of which the first `n` values are assigned, 1592-1595 -/
def cells1 (a : Arr D.F) (n : ℕ) (i : List ℕ) : Num D.F :=
  match i with
  | [k] => if k < n then stored D (a.get [k]) else fillOf D a.isInt
  | _ => fillOf D a.isInt
/-- contents of a variable with two dimensions, which is written transposed, 1596-1599 -/
def cells2 (a : Arr D.F) (i : List ℕ) : Num D.F :=
  match i with
  | [x, y] => stored D (a.get [y, x])
  | _ => fillOf D a.isInt

/-- one field, 1484-1608 -/
def saveField (c : Field D.F) (f : NcFile D.F) : Outcome (NcFile D.F) :=
  match dump D c.kind c.val with
  | .int n => f.create D c.name (.nums [] true (fun _ => .i (wrap32 n)))
  | .float x => f.create D c.name (.nums [] false (fun _ => .f x))
  | .str s =>
    let maxLen := c.maxLen.getD s.length
    let dim := dimDefault maxLen
    if maxLen = 0 then .status "not modelled"
    else
      (f.ensure D dim maxLen).bind fun f =>
        if s.all (· < 128) then
          if s.length ≤ maxLen then f.create D c.name (.chars dim (s ++ List.replicate (maxLen - s.length) 32))
          else .throws "string longer than the dimension"
        else .throws "UnicodeEncodeError"
  | .none => .ok f
  | .arr a =>
    (shapeString c.annot a.shape).bind fun names =>
      (f.ensureAll D (names.zip a.shape)).bind fun f =>
        match names, a.shape with
        | [], [] => f.create D c.name (.nums [] a.isInt (fun i => stored D (a.get i)))
        | [d], [n] =>
          (f.create D c.name (.nums [d] a.isInt (cells1 D a n))).bind fun f =>
            if f.unlim = some d then .ok { f with dims := fun m => if m = d then some (max ((f.dims d).getD 0) n) else f.dims m }
            else if n ≤ (f.dims d).getD 0 then .ok f
            else .throws "shape mismatch"
        | [d, e], [n, m] =>
          if f.dims d = some n ∧ f.dims e = some m ∧ f.unlim ≠ some d ∧ f.unlim ≠ some e then
            f.create D c.name (.nums [e, d] a.isInt (cells2 D a))
          else .status "not modelled"
        | _, _ => .throws "ValueError"
  | .bool _ => .throws "ValueError"
  | .other => .throws "ValueError"

/-- the empty file with the dimensions that are written for compatibility, 1438-1440 -/
def newFile : NcFile D.F where
  dims := fun n => if n = "mn_mode_pot" then some 100 else if n = "current_label" then some 30 else if n = "dim_00006" then some 6 else none
  unlim := none
  vars := []

/-- the loop over the fields, 1483 -/
def saveFields : List (Field D.F) → NcFile D.F → Outcome (NcFile D.F)
  | [], f => .ok f
  | c :: r, f => (saveField D c f).bind (saveFields r)

/-- `VmecWOut._save_to_netcdf3`, 1433-1608 -/
def save (w : List (Field D.F)) : Outcome (NcFile D.F) := saveFields D w (newFile D)

/-! ## loading -/

/-- characters that `str.strip()` removes, below 128 -/
def isSpace (c : ℕ) : Bool := (9 ≤ c && c ≤ 13) || (28 ≤ c && c ≤ 32)
/-- `str.strip` -/
def stripBy (p : ℕ → Bool) (l : List ℕ) : List ℕ := ((l.dropWhile p).reverse.dropWhile p).reverse

/-- one variable of the file as read, 1690-1710 -/
def loadVar (f : NcFile D.F) (v : Var D.F) : PVal D.F :=
  match v with
  | .chars _ b => if b.all (· < 128) then .str (stripBy isSpace (stripBy (· = 0) b)) else .str []
  | .nums [e, d] isInt data => .arr { isInt := isInt, shape := [(f.dims d).getD 0, (f.dims e).getD 0], get := fun i => match i with | [y, x] => data [x, y] | _ => fillOf D isInt }
  | .nums dims isInt data => .arr { isInt := isInt, shape := dims.map fun d => (f.dims d).getD 0, get := data }

/-- the values read from the file, 1687-1710 -/
def attrs (f : NcFile D.F) : List (String × PVal D.F) := f.vars.map fun v => (v.1, loadVar D f v.2)

/-- `attrs.setdefault(name, value)` -/
def setDefault (name : String) (v : PVal D.F) (a : List (String × PVal D.F)) : List (String × PVal D.F) := if a.any (·.1 = name) then a else a ++ [(name, v)]

/-- `attrs[name]` -/
def item (a : List (String × PVal D.F)) (name : String) : Outcome (PVal D.F) := match a.lookup name with | some v => .ok v | none => .throws "KeyError"

/-- the size that an entry stands for, as an argument of `np.zeros`; anything but a scalar integer is a `TypeError` -/
def asSize (v : PVal D.F) : Outcome ℕ :=
  match v with
  | .arr a => if a.shape = [] then (match a.get [] with | .i n => if 0 ≤ n then .ok n.toNat else .throws "ValueError" | .f _ => .throws "TypeError") else .throws "TypeError"
  | .int n => if 0 ≤ n then .ok n.toNat else .throws "ValueError"
  | _ => .throws "TypeError"

/-- `np.zeros([m, n])` -/
def zeros (m n : ℕ) : Arr D.F := { isInt := false, shape := [m, n], get := fun _ => .f D.zero }
/-- `np.array([])` -/
def emptyArr : Arr D.F := { isInt := false, shape := [0], get := fun _ => .f D.zero }

/-- truth value of a scalar entry; other entries are not modelled and count as false -/
def truthy (v : PVal D.F) : Bool := match v with | .arr a => (match a.get [] with | .i n => n ≠ 0 | .f _ => false) | .int n => n ≠ 0 | _ => false

/-- `attrs["version_"] <= 8.0` -/
def oldVersion (v : PVal D.F) : Bool := match v with | .arr a => (match a.get [] with | .i n => D.le8 (D.ofInt n) | .f x => D.le8 x) | .float x => D.le8 x | _ => false

/-- the values that very old files do not have, 1724-1740 -/
def oldDefaults (a : List (String × PVal D.F)) : List (String × PVal D.F) :=
  let num := ["fsqr", "fsqz", "fsql", "ftolv"].foldl (fun a n => setDefault D n (.float D.nan) a) a
  let str := ["pcurr_type", "pmass_type", "piota_type"].foldl (fun a n => setDefault D n (.str [85, 78, 75, 78, 79, 87, 78]) a) num
  ["am", "ac", "ai", "am_aux_s", "am_aux_f", "ac_aux_s", "ac_aux_f", "ai_aux_s", "ai_aux_f"].foldl (fun a n => setDefault D n (.arr (emptyArr D)) a) str

/-- the values that are handed to the validation, 1687-1741 -/
def fromFile (f : NcFile D.F) : Outcome (List (String × PVal D.F)) :=
  let a := attrs D f
  (item D a "mnmax").bind fun vm => (item D a "ns").bind fun vn =>
  (asSize D vm).bind fun m => (asSize D vn).bind fun n =>
    let a := setDefault D "lmns_full" (.arr (zeros D m n)) a
    (item D a "lasym__logical__").bind fun lasym =>
      let a := if truthy D lasym then setDefault D "lmnc_full" (.arr (zeros D m n)) a else a
      let a := setDefault D "lrfp__logical__" (.int 0) a
      (item D a "version_").bind fun version => .ok (if oldVersion D version then oldDefaults D a else a)

/-- `right_pad`, `_util.py:434-441` -/
def rightPad (target : ℕ) (pad : D.F) (a : Arr D.F) : Arr D.F :=
  match a.shape with
  | [n] => { isInt := a.isInt, shape := [max n target], get := fun i => match i with | [k] => if k < n then a.get [k] else .f pad | _ => .f pad }
  | _ => a

/-- validation of a field of the given type: the validators 79, 109, 113, 879, 1029, 1252 and the conversion to the declared type; `none` is a validation error -/
def validate (k : FKind D.F) (v : PVal D.F) : Option (PVal D.F) :=
  match k, v with
  | .bool, .arr a => if a.shape = [] then (match a.get [] with | .i n => some (.bool (n ≠ 0)) | .f _ => none) else none
  | .int, .arr a => if a.shape = [] then (match a.get [] with | .i n => some (.int n) | .f _ => none) else none
  | .float, .arr a => if a.shape = [] then (match a.get [] with | .i n => some (.float (D.ofInt n)) | .f x => some (.float x)) else none
  | .bool, .int n => some (.bool (n ≠ 0))
  | .int, .int n => some (.int n)
  | .float, .float x => some (.float x)
  | .str, .str s => some (.str s)
  | .arr, .arr a => if a.isInt then none else some (.arr a)
  | .optArr, .arr a => if a.isInt then none else some (.arr a)
  | .optArr, .none => some .none
  | .intAsFloat, .arr a => some (.arr { isInt := true, shape := a.shape, get := fun i => match a.get i with | .i n => .i n | .f x => .i (D.toInt x) })
  | .intArr, .arr a => some (.arr { isInt := true, shape := a.shape, get := fun i => match a.get i with | .i n => .i n | .f x => .i (D.toInt x) })
  | .aux pad, .arr a => if a.isInt then none else some (.arr (rightPad D 101 pad a))
  | .extcur, .arr a => if a.shape ≠ [] then (if a.isInt then none else some (.arr a)) else some (.arr { isInt := false, shape := [0], get := fun _ => .f D.fill })
  | _, _ => none

end Verif.PyOutput
