import Verif.Common.Outcome
import Mathlib.Data.List.Basic
import Mathlib.Algebra.BigOperators.Group.List.Defs

/-!
# Model of the JSON form of classes with numpy arrays

`src/vmecpp/_pydantic_numpy.py`: `BaseModelWithNumpy` 14-74, `_serialize_value` 182-205, `_deserialize_value` 208-240, `_traverse_field_contents` 243-365, `sanitize_floats_in_container` 368-381,
`_sanitize_float` 384-389, `_reconstruct_floats_for_numpy` 392-403, `_reconstruct_float` 406-415.

* A double is a finite number of an arbitrary type, NaN (one value) or an infinity.
* An array is a number type, a shape and its elements in the order of C; `np.array` and `tolist` are modelled by their documented behaviour.
* Values are JSON values, tuples and arrays; sets, `jax` arrays and numpy scalars are not modelled.  The conversion of the JSON value to text and back is taken as exact.  What pydantic does with a value
  that this module leaves unchanged is not modelled.
-/
namespace Verif.PyJson
open Verif

/-- a double -/
inductive Dbl (R : Type) where
  | fin (x : R)
  | nan
  | pinf
  | ninf
deriving DecidableEq

/-- a value without parts -/
inductive Lit (R : Type) where
  | null
  | bool (b : Bool)
  | int (n : Int)
  | flt (x : Dbl R)
  | str (s : String)
deriving DecidableEq

/-- number types of arrays; `other` is any that is not in `_NUMPY_ALLOWED_NONBINARY_DTYPES`, 129 -/
inductive DType where
  | float64
  | int64
  | boolean
  | other
deriving DecidableEq

/-- a numpy array -/
structure NArr (R : Type) where
  dtype : DType
  shape : List ℕ
  data : List (Lit R)

/-- a Python value -/
inductive V (R : Type) where
  | lit (x : Lit R)
  | arr (a : NArr R)
  | list (l : List (V R))
  | tuple (l : List (V R))
  | dict (keys : List String) (vals : List (V R))

/-- a declared type: `scalar` is a class that is not an array, `generic` another generic type -/
inductive Ty where
  | any
  | array
  | scalar
  | literal
  | annotated (t : Ty)
  | union (ts : List Ty)
  | mapping (t : Ty)
  | tuple (ts : List Ty)
  | tupleAll (t : Ty)
  | list (t : Ty)
  | generic

variable {R : Type}

/-! ## numpy -/

/-- the first `n` pieces of length `p` -/
def chunks {α : Type} (p : ℕ) : ℕ → List α → List (List α)
  | 0, _ => []
  | n + 1, d => d.take p :: chunks p n (d.drop p)

/-- `ndarray.tolist` -/
def tolist : List ℕ → List (Lit R) → V R
  | [], d => .lit (d.headD .null)
  | n :: s, d => .list ((chunks s.prod n d).map (tolist s))

mutual
/-- elements of a nested list -/
def leaves : V R → List (V R)
  | .list l => leavesL l
  | .tuple l => leavesL l
  | v => [v]
def leavesL : List (V R) → List (V R)
  | [] => []
  | v :: vs => leaves v ++ leavesL vs
end

mutual
/-- shape of a nested list, `none` if it is not regular -/
def shapeOf : V R → Option (List ℕ)
  | .list l => (shapesL l).bind fun ss => match ss with | [] => some [0] | s :: ss => if ss.all (· = s) then some ((ss.length + 1) :: s) else none
  | .tuple l => (shapesL l).bind fun ss => match ss with | [] => some [0] | s :: ss => if ss.all (· = s) then some ((ss.length + 1) :: s) else none
  | _ => some []
def shapesL : List (V R) → Option (List (List ℕ))
  | [] => some []
  | v :: vs => (shapeOf v).bind fun s => (shapesL vs).map (s :: ·)
end

/-- number type of an element -/
def elemType (v : V R) : DType :=
  match v with
  | .lit (.bool _) => .boolean
  | .lit (.int n) => if -2 ^ 63 ≤ n ∧ n < 2 ^ 63 then .int64 else .other
  | .lit (.flt _) => .float64
  | _ => .other

/-- common number type of two elements -/
def promote2 : DType → DType → DType
  | .other, _ => .other
  | _, .other => .other
  | .float64, _ => .float64
  | _, .float64 => .float64
  | .int64, _ => .int64
  | _, .int64 => .int64
  | .boolean, .boolean => .boolean

/-- number type of `np.array`; an empty list gives doubles -/
def promote : List (V R) → DType
  | [] => .float64
  | v :: vs => vs.foldl (fun t v => promote2 t (elemType v)) (elemType v)

/-- an element converted to the number type -/
def convert (ofInt : Int → R) (t : DType) (v : V R) : Lit R :=
  match t, v with
  | .float64, .lit (.int n) => .flt (.fin (ofInt n))
  | .float64, .lit (.bool b) => .flt (.fin (ofInt (if b then 1 else 0)))
  | .int64, .lit (.bool b) => .int (if b then 1 else 0)
  | _, .lit x => x
  | _, _ => .null

/-- `np.array` of a nested list; lists that are not regular raise `ValueError` -/
def npArray (ofInt : Int → R) (v : V R) : Outcome (NArr R) :=
  match shapeOf v with
  | none => .throws "ValueError"
  | some s => .ok { dtype := promote (leaves v), shape := s, data := (leaves v).map (convert ofInt (promote (leaves v))) }

/-! ## doubles in JSON -/

/-- `_sanitize_float`, 384-389 -/
def sanitize (x : Lit R) : Lit R :=
  match x with
  | .flt .nan => .str "NaN"
  | .flt .pinf => .str "Infinity"
  | .flt .ninf => .str "-Infinity"
  | x => x

/-- `_reconstruct_float`, 406-415 -/
def reconstructLit (x : Lit R) : Lit R :=
  match x with
  | .null => .flt .nan
  | .str s => if s = "NaN" ∨ s = "nan" then .flt .nan else if s = "Infinity" ∨ s = "inf" then .flt .pinf else if s = "-Infinity" ∨ s = "-inf" then .flt .ninf else .str s
  | x => x

mutual
/-- `_reconstruct_floats_for_numpy`, 392-403 -/
def reconstruct : V R → V R
  | .list l => .list (reconstructL l)
  | .lit x => .lit (reconstructLit x)
  | v => v
def reconstructL : List (V R) → List (V R)
  | [] => []
  | v :: vs => reconstruct v :: reconstructL vs
end

mutual
/-- the value in JSON: `ser_json_inf_nan="strings"` and `sanitize_floats_in_container`, 368-381; tuples become lists, arrays are not serializable -/
def jsonify : V R → Outcome (V R)
  | .lit x => .ok (.lit (sanitize x))
  | .arr _ => .throws "PydanticSerializationError"
  | .list l => (jsonifyL l).bind fun l => .ok (.list l)
  | .tuple l => (jsonifyL l).bind fun l => .ok (.list l)
  | .dict k l => (jsonifyL l).bind fun l => .ok (.dict k l)
def jsonifyL : List (V R) → Outcome (List (V R))
  | [] => .ok []
  | v :: vs => (jsonify v).bind fun v => (jsonifyL vs).bind fun vs => .ok (v :: vs)
end

/-! ## conversion of fields -/

/-- `_serialize_value` for an array type, 182-205; the flag tells whether the result is another object -/
def serValue (v : V R) : Outcome (Bool × V R) :=
  match v with
  | .arr a => if a.dtype = .other then .throws "ValueError" else .ok (true, tolist a.shape a.data)
  | v => .ok (false, v)

/-- `_deserialize_value` for an array type, 208-240 -/
def deserValue (ofInt : Int → R) (v : V R) : Outcome (Bool × V R) :=
  match v with
  | .list l => (npArray ofInt (reconstruct (.list l))).bind fun a => if a.dtype = .other then .ok (false, .list l) else .ok (true, .arr a)
  | v => .ok (false, v)

/-- the function for every element -/
def mapO {α β : Type} (f : α → Outcome β) : List α → Outcome (List β)
  | [] => .ok []
  | v :: vs => (f v).bind fun r => (mapO f vs).bind fun rs => .ok (r :: rs)

mutual
/-- `_traverse_field_contents`, 243-365; containers are always new objects -/
def traverse (conv : V R → Outcome (Bool × V R)) : Ty → V R → Outcome (Bool × V R)
  | .any, v => .ok (false, v)
  | .array, v => conv v
  | .scalar, v => .ok (false, v)
  | .annotated t, v => traverse conv t v
  | .literal, v => .ok (false, v)
  | .union ts, v => traverseUnion conv ts v
  | .mapping t, v =>
    match v with
    | .dict k vs => (mapO (traverse conv t) vs).bind fun rs => .ok (true, .dict k (rs.map (·.2)))
    | v => .ok (false, v)
  | .tuple ts, v =>
    match v with
    | .tuple vs => (traverseZip conv ts vs).bind fun rs => .ok (true, .tuple rs)
    | .list vs => (traverseZip conv ts vs).bind fun rs => .ok (true, .tuple rs)
    | v => .ok (false, v)
  | .tupleAll t, v =>
    match v with
    | .tuple vs => (mapO (traverse conv t) vs).bind fun rs => .ok (true, .tuple (rs.map (·.2)))
    | .list vs => (mapO (traverse conv t) vs).bind fun rs => .ok (true, .tuple (rs.map (·.2)))
    | v => .ok (false, v)
  | .list t, v =>
    match v with
    | .list vs => (mapO (traverse conv t) vs).bind fun rs => .ok (true, .list (rs.map (·.2)))
    | v => .ok (false, v)
  | .generic, v => .ok (false, v)
/-- the loop over the options of a union, 318-328 -/
def traverseUnion (conv : V R → Outcome (Bool × V R)) : List Ty → V R → Outcome (Bool × V R)
  | [], v => .ok (false, v)
  | t :: ts, v => (traverse conv t v).bind fun r => if r.1 then .ok r else traverseUnion conv ts v
/-- `zip(value_types, value, strict=True)`, 348-351 -/
def traverseZip (conv : V R → Outcome (Bool × V R)) : List Ty → List (V R) → Outcome (List (V R))
  | [], [] => .ok []
  | t :: ts, v :: vs => (traverse conv t v).bind fun r => (traverseZip conv ts vs).bind fun rs => .ok (r.2 :: rs)
  | _, _ => .throws "ValueError"
end

/-- `serialize_special_field` followed by the conversion to JSON, 28-39 and 133-159 -/
def serialize (t : Ty) (v : V R) : Outcome (V R) := (traverse serValue t v).bind fun r => jsonify r.2
/-- `deserialize_special_field`, 162-175 -/
def deserialize (ofInt : Int → R) (t : Ty) (v : V R) : Outcome (V R) := (traverse (deserValue ofInt) t v).bind fun r => .ok r.2

end Verif.PyJson
