import Verif.Common.Ext
import Verif.Common.Mem

/-!
# Model of the input object, its validation and its JSON form

`common/vmec_indata/vmec_indata.{h,cc}`, `common/vmec_indata/boundary_from_json.cc` and `util/json_io/json_io.cc`.

Doubles are `D` (NaN, infinities, exact finite values; the two zeros are identified).  C++ `int`s are `Int`;
the conversion of a JSON integer to `int` wraps (`toInt`).  Eigen vectors are lists, Eigen matrices are `Mat`.
Messages of error statuses are shortened to the name of the variable.  Log messages are dropped.
-/
namespace Verif.Indata
open Verif

instance : Zero D := ⟨.fin 0⟩

/-- `vmec_indata.h:33-46` -/
inductive FreeBoundaryMethod where
  | NESTOR | ONLY_COILS | BIEST
  deriving DecidableEq, Repr

/-- `vmec_indata.h:55-61` -/
inductive IterationStyle where
  | VMEC_8_52 | PARVMEC
  deriving DecidableEq, Repr

/-- class `VmecINDATA`, `vmec_indata.h:69-296` -/
structure Indata where
  lasym : Bool
  nfp : Int
  mpol : Int
  ntor : Int
  mpol_geometry : Int
  ntor_geometry : Int
  ntheta : Int
  nzeta : Int
  ns_array : List Int
  ftol_array : List D
  niter_array : List Int
  phiedge : D
  ncurr : Int
  pmass_type : String
  am : List D
  am_aux_s : List D
  am_aux_f : List D
  pres_scale : D
  gamma : D
  spres_ped : D
  piota_type : String
  ai : List D
  ai_aux_s : List D
  ai_aux_f : List D
  pcurr_type : String
  ac : List D
  ac_aux_s : List D
  ac_aux_f : List D
  curtor : D
  bloat : D
  lfreeb : Bool
  mgrid_file : String
  extcur : List D
  nvacskip : Int
  free_boundary_method : FreeBoundaryMethod
  nstep : Int
  aphi : List D
  delt : D
  tcon0 : D
  lforbal : Bool
  iteration_style : IterationStyle
  return_outputs_even_if_not_converged : Bool
  raxis_c : List D
  zaxis_s : List D
  raxis_s : Option (List D)
  zaxis_c : Option (List D)
  rbc : Mat D
  zbs : Mat D
  rbs : Option (Mat D)
  zbc : Option (Mat D)

/-- the constructor `VmecINDATA()`, `vmec_indata.cc:109-187` (`kNsDefault`, `kFTolDefault`, `kNIterDefault`: `vmec_indata.h:20-26`) -/
def init : Indata where
  lasym := false
  nfp := 1
  mpol := 6
  ntor := 0
  mpol_geometry := -1
  ntor_geometry := -1
  ntheta := 0
  nzeta := 0
  ns_array := [31]
  ftol_array := [.fin (1 / 10 ^ 10)]
  niter_array := [100]
  phiedge := .fin 1
  ncurr := 0
  pmass_type := "power_series"
  am := []
  am_aux_s := []
  am_aux_f := []
  pres_scale := .fin 1
  gamma := .fin 0
  spres_ped := .fin 1
  piota_type := "power_series"
  ai := []
  ai_aux_s := []
  ai_aux_f := []
  pcurr_type := "power_series"
  ac := []
  ac_aux_s := []
  ac_aux_f := []
  curtor := .fin 0
  bloat := .fin 1
  lfreeb := false
  mgrid_file := "NONE"
  extcur := []
  nvacskip := 1
  free_boundary_method := .NESTOR
  nstep := 10
  aphi := [.fin 1]
  delt := .fin 1
  tcon0 := .fin 1
  lforbal := false
  iteration_style := .VMEC_8_52
  return_outputs_even_if_not_converged := false
  raxis_c := [.fin 0]
  zaxis_s := [.fin 0]
  raxis_s := none
  zaxis_c := none
  rbc := ⟨6, 1, fun _ _ => 0⟩
  zbs := ⟨6, 1, fun _ _ => 0⟩
  rbs := none
  zbc := none

/-! ## Validation -/

/-- `a == b` of doubles -/
def deq : D → D → Bool
  | .nan, _ => false
  | _, .nan => false
  | a, b => a = b

/-- `if (cond) return absl::InvalidArgumentError(...)` -/
def reject (c : Bool) (what : String) : Outcome Unit := if c then .status what else .ok ()

/-- `x[i]` of an Eigen vector -/
def at' {α : Type} (v : List α) (i : Nat) : Outcome α :=
  match v[i]? with
  | some a => .ok a
  | none => .ub "vector index out of bounds"

/-- `*opt`, `opt->` -/
def deref {α : Type} (o : Option α) : Outcome α :=
  match o with
  | some a => .ok a
  | none => .ub "empty optional dereferenced"

/-- the loop over `ns_array`, `vmec_indata.cc:1294-1315`; `largest` is `largestNumSurfacesSoFar`.
    The message prints `ns_array[idx - 1]`, which exists because `ns < -1` is impossible for the first entry. -/
def checkNs : Int → List Int → Outcome Unit
  | _, [] => .ok ()
  | largest, ns :: l =>
    if ns ≥ 3 then
      if ns < largest then .status "ns_array"
      else checkNs (if ns > largest then ns else largest) l
    else .status "ns_array"

/-- `vmec_indata.cc:1292-1321` -/
def checkNsArray (l : List Int) : Outcome Unit := if l.length > 0 then checkNs (-1) l else .status "ns_array"

/-- a check that reads entry `idx` of an array for every `idx < n`, `vmec_indata.cc:1323-1345` -/
def checkEntries {α : Type} (bad : α → Bool) (what : String) (v : List α) : Nat → Nat → Outcome Unit
  | _, 0 => .ok ()
  | idx, n + 1 => do
    let x ← at' v idx
    reject (bad x) what
    checkEntries bad what v (idx + 1) n

/-- `vmec_indata.cc:1556-1570`: number of rows and columns -/
def checkShape (d : Indata) (what : String) (a : Mat D) : Outcome Unit := do
  reject (a.rows ≠ d.mpol) what
  reject (a.cols ≠ 2 * d.ntor + 1) what

/-- `vmec_indata.cc:1254-1281` -/
def checkResolution (d : Indata) : Outcome Unit := do
  reject (d.nfp ≤ 0) "nfp"
  reject (d.mpol < 2) "mpol"
  reject (d.ntor < 0) "ntor"
  reject (d.ntheta < 0) "ntheta"
  reject (d.nzeta < 0) "nzeta"

/-- `vmec_indata.cc:1285-1345`; the tolerances and iteration numbers are read up to the length of `ns_array` -/
def checkGrids (d : Indata) : Outcome Unit := do
  checkNsArray d.ns_array
  checkEntries (fun x => D.lt x (.fin 0)) "ftol_array" d.ftol_array 0 d.ns_array.length
  checkEntries (fun n => n ≤ 0) "niter_array" d.niter_array 0 d.ns_array.length

/-- `vmec_indata.cc:1349-1431` -/
def checkPhysics (d : Indata) : Outcome Unit := do
  reject (deq d.phiedge (.fin 0)) "phiedge"
  reject (d.ncurr ≠ 0 ∧ d.ncurr ≠ 1) "ncurr"
  reject (D.lt d.pres_scale (.fin 0)) "pres_scale"
  reject (deq d.gamma (.fin 1)) "adiabatic_index"
  reject (D.le d.spres_ped (.fin 0) || D.lt (.fin 1) d.spres_ped) "spres_ped"
  reject (d.ncurr = 0 ∧ !deq d.bloat (.fin 1)) "bloat"

/-- `vmec_indata.cc:1435-1506` -/
def checkControl (d : Indata) : Outcome Unit := do
  reject (d.lfreeb ∧ d.nvacskip < 1) "nvacskip"
  reject (d.lfreeb ∧ d.free_boundary_method ≠ .NESTOR ∧ d.free_boundary_method ≠ .ONLY_COILS) "free_boundary_method"
  reject (d.nstep ≤ 0) "nstep"
  reject (D.le d.delt (.fin 0) || D.lt (.fin 10) d.delt) "delt"
  reject (D.lt d.tcon0 (.fin 0) || D.lt (.fin 1) d.tcon0) "tcon0"
  reject (d.iteration_style ≠ .VMEC_8_52 ∧ d.iteration_style ≠ .PARVMEC) "iteration_style"

/-- `vmec_indata.cc:1510-1550` -/
def checkAxis (d : Indata) : Outcome Unit := do
  reject ((d.raxis_c.length : Int) ≠ d.ntor + 1) "raxis_c"
  reject ((d.zaxis_s.length : Int) ≠ d.ntor + 1) "zaxis_s"
  if d.lasym then
    let rs ← deref d.raxis_s
    reject ((rs.length : Int) ≠ d.ntor + 1) "raxis_s"
    let zc ← deref d.zaxis_c
    reject ((zc.length : Int) ≠ d.ntor + 1) "zaxis_c"
  else
    reject d.raxis_s.isSome "raxis_s"
    reject d.zaxis_c.isSome "zaxis_c"

/-- `vmec_indata.cc:1554-1619` -/
def checkBoundary (d : Indata) : Outcome Unit := do
  checkShape d "rbc" d.rbc
  checkShape d "zbs" d.zbs
  if d.lasym then
    let rbs ← deref d.rbs
    checkShape d "rbs" rbs
    let zbc ← deref d.zbc
    checkShape d "zbc" zbc
  else
    reject d.rbs.isSome "rbs"
    reject d.zbc.isSome "zbc"

/-- the info messages, `vmec_indata.cc:1621-1658`: only the reads matter -/
def infoMessages (d : Indata) (enable : Bool) : Outcome Unit := do
  if enable then
    let _ ← at' d.zaxis_s 0
    let _ ← d.zbs.get 0 d.ntor
    if d.lasym then
      let rs ← deref d.raxis_s
      let _ ← at' rs 0
      let rbs ← deref d.rbs
      let _ ← rbs.get 0 d.ntor
      pure ()
    else pure ()
  else pure ()

/-- `IsConsistent`, `vmec_indata.cc:1250-1661` -/
def isConsistent (d : Indata) (enable_info_messages : Bool) : Outcome Unit := do
  checkResolution d
  checkGrids d
  checkPhysics d
  checkControl d
  checkAxis d
  checkBoundary d
  infoMessages d enable_info_messages

/-! ## JSON documents -/

/-- a JSON value as `nlohmann::json` holds it; an object is a map (`std::map`), so it is a function here -/
inductive Json where
  | null
  | bool (b : Bool)
  | int (i : Int)
  | float (x : D)
  | str (s : String)
  | arr (l : List Json)
  | obj (f : String → Option Json)

instance : Inhabited Json := ⟨.null⟩

/-- an object -/
abbrev Obj := String → Option Json

/-- `j[name] = v` -/
def put (o : Obj) (name : String) (v : Json) : Obj := fun k => if k = name then some v else o k

/-- conversion of a 64-bit JSON integer to `int` (`static_cast<int>` in `nlohmann::json::get`) -/
def toInt (i : Int) : Int := i.bmod (2 ^ 32)

/-- `JsonReadBool`, `json_io.cc:18-31` -/
def readBool (j : Obj) (name : String) : Outcome (Option Bool) :=
  match j name with
  | none => .ok none
  | some (.bool b) => .ok (some b)
  | some _ => .status name

/-- `JsonReadInt`, `json_io.cc:33-46` -/
def readInt (j : Obj) (name : String) : Outcome (Option Int) :=
  match j name with
  | none => .ok none
  | some (.int i) => .ok (some (toInt i))
  | some _ => .status name

/-- `JsonReadDouble`, `json_io.cc:48-61`; the rounding of integers beyond 2^53 is not modelled -/
def readDouble (j : Obj) (name : String) : Outcome (Option D) :=
  match j name with
  | none => .ok none
  | some (.int i) => .ok (some (.fin i))
  | some (.float x) => .ok (some x)
  | some _ => .status name

/-- `JsonReadString`, `json_io.cc:63-76` -/
def readString (j : Obj) (name : String) : Outcome (Option String) :=
  match j name with
  | none => .ok none
  | some (.str s) => .ok (some s)
  | some _ => .status name

/-- entries of an integer array, `json_io.cc:90-101` -/
def entriesInt (name : String) : List Json → Outcome (List Int)
  | [] => .ok []
  | .int i :: l => do
    let r ← entriesInt name l
    pure (toInt i :: r)
  | _ :: _ => .status name

/-- `JsonReadVectorInt`, `json_io.cc:78-111` -/
def readVectorInt (j : Obj) (name : String) : Outcome (Option (List Int)) :=
  match j name with
  | none => .ok none
  | some (.arr l) => do
    let r ← entriesInt name l
    pure (some r)
  | some _ => .status name

/-- entries of an array of doubles, `json_io.cc:125-136` -/
def entriesDouble (name : String) : List Json → Outcome (List D)
  | [] => .ok []
  | .int i :: l => do
    let r ← entriesDouble name l
    pure (.fin i :: r)
  | .float x :: l => do
    let r ← entriesDouble name l
    pure (x :: r)
  | _ :: _ => .status name

/-- `JsonReadVectorDouble`, `json_io.cc:113-146` -/
def readVectorDouble (j : Obj) (name : String) : Outcome (Option (List D)) :=
  match j name with
  | none => .ok none
  | some (.arr l) => do
    let r ← entriesDouble name l
    pure (some r)
  | some _ => .status name

/-- `BoundaryCoefficient`, `boundary_from_json.h:18-37` -/
structure Coefficient where
  m : Int
  n : Int
  value : D

/-- the loop over the entries, `boundary_from_json.cc:37-77`: entries without `m`, `n` or `value` are skipped -/
def boundaryEntries (name : String) : List Json → Outcome (List Coefficient)
  | [] => .ok []
  | .obj e :: l => do
    let m ← readInt e "m"
    match m with
    | none => boundaryEntries name l
    | some m => do
      let n ← readInt e "n"
      match n with
      | none => boundaryEntries name l
      | some n => do
        let v ← readDouble e "value"
        match v with
        | none => boundaryEntries name l
        | some v => do
          let r ← boundaryEntries name l
          pure (⟨m, n, v⟩ :: r)
  | _ :: _ => .status name

/-- `BoundaryCoefficient::FromJson`, `boundary_from_json.cc:24-80` -/
def readBoundary (j : Obj) (name : String) : Outcome (Option (List Coefficient)) :=
  match j name with
  | none => .ok none
  | some (.arr l) => do
    let r ← boundaryEntries name l
    pure (some r)
  | some _ => .status name

/-! ## Reading an input -/

/-- `auto maybe = JsonRead...(j, name); if (!maybe.ok()) return ...; if (maybe->has_value()) x = maybe->value();` -/
def field {α : Type} (r : Outcome (Option α)) (old : α) : Outcome α := do
  let x ← r
  pure (x.getD old)

/-- `vmec_indata.cc:51-63` -/
def freeBoundaryMethodFromString (s : String) : Outcome FreeBoundaryMethod :=
  if s = "nestor" then .ok .NESTOR
  else if s = "only_coils" then .ok .ONLY_COILS
  else if s = "biest" then .ok .BIEST
  else .status "free boundary method not known"

/-- `vmec_indata.cc:65-78` -/
def FreeBoundaryMethod.toString : FreeBoundaryMethod → String
  | .NESTOR => "nestor"
  | .ONLY_COILS => "only_coils"
  | .BIEST => "biest"

/-- `vmec_indata.cc:85-94` -/
def iterationStyleFromString (s : String) : Outcome IterationStyle :=
  if s = "vmec_8_52" then .ok .VMEC_8_52
  else if s = "parvmec" then .ok .PARVMEC
  else .status "iteration style not known"

/-- `vmec_indata.cc:96-107` -/
def IterationStyle.toString : IterationStyle → String
  | .VMEC_8_52 => "vmec_8_52"
  | .PARVMEC => "parvmec"

/-- an enumeration given by its name, `vmec_indata.cc:816-828`, `872-884` -/
def enumField {α : Type} (r : Outcome (Option String)) (conv : String → Outcome α) (old : α) : Outcome α := do
  let x ← r
  match x with
  | none => pure old
  | some s => conv s

/-- `vmec_indata.cc:502-564` -/
def readResolution (j : Obj) (d : Indata) : Outcome Indata := do
  let lasym ← field (readBool j "lasym") d.lasym
  let nfp ← field (readInt j "nfp") d.nfp
  let mpol ← field (readInt j "mpol") d.mpol
  let ntor ← field (readInt j "ntor") d.ntor
  let mpol_geometry ← field (readInt j "mpol_geometry") d.mpol_geometry
  let ntor_geometry ← field (readInt j "ntor_geometry") d.ntor_geometry
  let ntheta ← field (readInt j "ntheta") d.ntheta
  let nzeta ← field (readInt j "nzeta") d.nzeta
  pure { d with lasym, nfp, mpol, ntor, mpol_geometry, ntor_geometry, ntheta, nzeta }

/-- `vmec_indata.cc:566-602` -/
def readGrids (j : Obj) (d : Indata) : Outcome Indata := do
  let ns_array ← field (readVectorInt j "ns_array") d.ns_array
  let ftol_array ← field (readVectorDouble j "ftol_array") d.ftol_array
  reject (ftol_array.length ≠ ns_array.length) "ftol_array"
  let niter_array ← field (readVectorInt j "niter_array") d.niter_array
  reject (niter_array.length ≠ ns_array.length) "niter_array"
  pure { d with ns_array, ftol_array, niter_array }

/-- `vmec_indata.cc:606-684` -/
def readMass (j : Obj) (d : Indata) : Outcome Indata := do
  let phiedge ← field (readDouble j "phiedge") d.phiedge
  let ncurr ← field (readInt j "ncurr") d.ncurr
  let pmass_type ← field (readString j "pmass_type") d.pmass_type
  let am ← field (readVectorDouble j "am") d.am
  let am_aux_s ← field (readVectorDouble j "am_aux_s") d.am_aux_s
  let am_aux_f ← field (readVectorDouble j "am_aux_f") d.am_aux_f
  reject (am_aux_f.length ≠ am_aux_s.length) "am_aux_f"
  let pres_scale ← field (readDouble j "pres_scale") d.pres_scale
  let gamma ← field (readDouble j "gamma") d.gamma
  let spres_ped ← field (readDouble j "spres_ped") d.spres_ped
  pure { d with phiedge, ncurr, pmass_type, am, am_aux_s, am_aux_f, pres_scale, gamma, spres_ped }

/-- `vmec_indata.cc:688-724` -/
def readIota (j : Obj) (d : Indata) : Outcome Indata := do
  let piota_type ← field (readString j "piota_type") d.piota_type
  let ai ← field (readVectorDouble j "ai") d.ai
  let ai_aux_s ← field (readVectorDouble j "ai_aux_s") d.ai_aux_s
  let ai_aux_f ← field (readVectorDouble j "ai_aux_f") d.ai_aux_f
  reject (ai_aux_f.length ≠ ai_aux_s.length) "ai_aux_f"
  pure { d with piota_type, ai, ai_aux_s, ai_aux_f }

/-- `vmec_indata.cc:728-780` -/
def readCurrent (j : Obj) (d : Indata) : Outcome Indata := do
  let pcurr_type ← field (readString j "pcurr_type") d.pcurr_type
  let ac ← field (readVectorDouble j "ac") d.ac
  let ac_aux_s ← field (readVectorDouble j "ac_aux_s") d.ac_aux_s
  let ac_aux_f ← field (readVectorDouble j "ac_aux_f") d.ac_aux_f
  reject (ac_aux_f.length ≠ ac_aux_s.length) "ac_aux_f"
  let curtor ← field (readDouble j "curtor") d.curtor
  let bloat ← field (readDouble j "bloat") d.bloat
  pure { d with pcurr_type, ac, ac_aux_s, ac_aux_f, curtor, bloat }

/-- `vmec_indata.cc:784-828` -/
def readFreeBoundary (j : Obj) (d : Indata) : Outcome Indata := do
  let lfreeb ← field (readBool j "lfreeb") d.lfreeb
  let mgrid_file ← field (readString j "mgrid_file") d.mgrid_file
  let extcur ← field (readVectorDouble j "extcur") d.extcur
  let nvacskip ← field (readInt j "nvacskip") d.nvacskip
  let free_boundary_method ← enumField (readString j "free_boundary_method") freeBoundaryMethodFromString d.free_boundary_method
  pure { d with lfreeb, mgrid_file, extcur, nvacskip, free_boundary_method }

/-- `vmec_indata.cc:832-894` -/
def readTweaks (j : Obj) (d : Indata) : Outcome Indata := do
  let nstep ← field (readInt j "nstep") d.nstep
  let aphi ← field (readVectorDouble j "aphi") d.aphi
  let delt ← field (readDouble j "delt") d.delt
  let tcon0 ← field (readDouble j "tcon0") d.tcon0
  let lforbal ← field (readBool j "lforbal") d.lforbal
  let iteration_style ← enumField (readString j "iteration_style") iterationStyleFromString d.iteration_style
  let return_outputs_even_if_not_converged ←
    field (readBool j "return_outputs_even_if_not_converged") d.return_outputs_even_if_not_converged
  pure { d with nstep, aphi, delt, tcon0, lforbal, iteration_style, return_outputs_even_if_not_converged }

/-- the lambda `pad_or_reject_axis`, `vmec_indata.cc:903-918` -/
def padOrReject (ntor : Int) (name : String) (axis : List D) : Outcome (List D) :=
  if (axis.length : Int) > ntor + 1 then .status name
  else if (axis.length : Int) < ntor + 1 then .ok (axis ++ List.replicate ((ntor + 1).toNat - axis.length) (.fin 0))
  else .ok axis

/-- `optional::value()` -/
def valueOf {α : Type} (o : Option α) : Outcome α :=
  match o with
  | some a => .ok a
  | none => .throws "bad_optional_access"

/-- an optional axis array, `vmec_indata.cc:946-958` -/
def readAxisOpt (j : Obj) (name : String) (ntor : Int) (old : Option (List D)) : Outcome (Option (List D)) := do
  let x ← readVectorDouble j name
  let v ← valueOf (x.orElse fun _ => old)
  let v ← padOrReject ntor name v
  pure (some v)

/-- `vmec_indata.cc:898-973` -/
def readAxis (j : Obj) (d : Indata) : Outcome Indata := do
  let raxis_c ← field (readVectorDouble j "raxis_c") d.raxis_c
  let raxis_c ← padOrReject d.ntor "raxis_c" raxis_c
  let zaxis_s ← field (readVectorDouble j "zaxis_s") d.zaxis_s
  let zaxis_s ← padOrReject d.ntor "zaxis_s" zaxis_s
  if d.lasym then
    let raxis_s ← readAxisOpt j "raxis_s" d.ntor d.raxis_s
    let zaxis_c ← readAxisOpt j "zaxis_c" d.ntor d.zaxis_c
    pure { d with raxis_c, zaxis_s, raxis_s, zaxis_c }
  else pure { d with raxis_c, zaxis_s }

/-- the loop over the entries, `vmec_indata.cc:983-1004`: only too large `m` and `|n|` are skipped, and `std::abs` of the smallest
    `int` is undefined.  Overflow of the size `2 * ntor + 1` and exhausted memory are not modelled. -/
def fillBoundary (mpol ntor : Int) : List Coefficient → Mat D → Outcome (Mat D)
  | [], a => .ok a
  | e :: l, a =>
    if e.m > mpol - 1 then fillBoundary mpol ntor l a
    else if e.n = -2 ^ 31 then .ub "absolute value of the smallest int"
    else if |e.n| > ntor then fillBoundary mpol ntor l a
    else do
      let a ← a.set e.m (ntor + e.n) e.value
      fillBoundary mpol ntor l a

/-- `vmec_indata.cc:977-1005` and `1007-1035` -/
def readBoundarySym (j : Obj) (name : String) (d : Indata) (old : Mat D) : Outcome (Mat D) := do
  let x ← readBoundary j name
  match x with
  | none => pure old
  | some l => do
    let z ← Mat.zero d.mpol (2 * d.ntor + 1)
    fillBoundary d.mpol d.ntor l z

/-- `vmec_indata.cc:1045-1073` and `1075-1103` after the array was zeroed -/
def readBoundaryAsym (j : Obj) (name : String) (d : Indata) (zeroed : Mat D) : Outcome (Mat D) := do
  let x ← readBoundary j name
  match x with
  | none => pure zeroed
  | some l => fillBoundary d.mpol d.ntor l zeroed

/-- `vmec_indata.cc:977-1104` -/
def readBoundaries (j : Obj) (d : Indata) : Outcome Indata := do
  let rbc ← readBoundarySym j "rbc" d d.rbc
  let zbs ← readBoundarySym j "zbs" d d.zbs
  if d.lasym then
    let z ← Mat.zero d.mpol (2 * d.ntor + 1)
    let rbs ← readBoundaryAsym j "rbs" d z
    let zbc ← readBoundaryAsym j "zbc" d z
    pure { d with rbc, zbs, rbs := some rbs, zbc := some zbc }
  else pure { d with rbc, zbs }

/-- `FromJson` after the text is parsed, `vmec_indata.cc:492-1115` -/
def fromDoc (doc : Json) : Outcome Indata :=
  match doc with
  | .obj j => do
    let d ← readResolution j init
    let d ← readGrids j d
    let d ← readMass j d
    let d ← readIota j d
    let d ← readCurrent j d
    let d ← readFreeBoundary j d
    let d ← readTweaks j d
    let d ← readAxis j d
    let d ← readBoundaries j d
    isConsistent d false
    pure d
  | _ => .status "root JSON element is not an object"

/-- `VmecINDATA::FromJson`, `vmec_indata.cc:488-1115`; `parse` is `nlohmann::json::parse`, which throws on malformed text -/
def fromJson (parse : String → Option Json) (text : String) : Outcome Indata :=
  match parse text with
  | none => .throws "parse_error"
  | some doc => fromDoc doc

/-! ## Writing an input -/

/-- assignment of an Eigen vector of doubles -/
def ofDoubles (v : List D) : Json := .arr (v.map .float)

/-- assignment of an Eigen vector of integers -/
def ofInts (v : List Int) : Json := .arr (v.map .int)

/-- `Eigen::DenseBase::value()`: the coefficient (0, 0) of an expression that must have one entry.  As in a release build the
    size is not checked. -/
def eigenValue (v : List D) : Outcome D :=
  match v with
  | x :: _ => .ok x
  | [] => .ub "vector index out of bounds"

/-- one entry of a boundary array, `vmec_indata.cc:1214-1227` -/
def coefficient (m n : Int) (value : D) : Json :=
  .obj (put (put (put (fun _ => none) "m" (.int m)) "n" (.int n)) "value" (.float value))

/-- `push_nonzero`, `vmec_indata.cc:1221-1227` -/
def pushNonzero (m n : Int) (value : D) (l : List Json) : List Json :=
  if value ≠ .fin 0 then l ++ [coefficient m n value] else l

/-- the four arrays filled by the loops `vmec_indata.cc:1214-1238` -/
structure BoundaryLists where
  rbc : List Json
  zbs : List Json
  rbs : List Json
  zbc : List Json

/-- body of the loops, `vmec_indata.cc:1217-1236` -/
def pushMode (d : Indata) (m n : Int) (b : BoundaryLists) : Outcome BoundaryLists := do
  let v ← d.rbc.get m (d.ntor + n)
  let rbc := pushNonzero m n v b.rbc
  let v ← d.zbs.get m (d.ntor + n)
  let zbs := pushNonzero m n v b.zbs
  if d.lasym then
    let a ← deref d.rbs
    let v ← a.get m (d.ntor + n)
    let rbs := pushNonzero m n v b.rbs
    let a ← deref d.zbc
    let v ← a.get m (d.ntor + n)
    let zbc := pushNonzero m n v b.zbc
    pure ⟨rbc, zbs, rbs, zbc⟩
  else pure ⟨rbc, zbs, b.rbs, b.zbc⟩

/-- `vmec_indata.cc:1208-1238` -/
def boundaryLists (d : Indata) : Outcome BoundaryLists :=
  forRangeM 0 d.mpol (fun m b => forRangeM (-d.ntor) (d.ntor + 1) (fun n b => pushMode d m n b) b) ⟨[], [], [], []⟩

/-- the scalar and vector members, `vmec_indata.cc:1138-1201`, as a table -/
def plainMembers (d : Indata) : List (String × Json) := [
  ("lasym", .bool d.lasym),
  ("nfp", .int d.nfp),
  ("mpol", .int d.mpol),
  ("ntor", .int d.ntor),
  ("mpol_geometry", .int d.mpol_geometry),
  ("ntor_geometry", .int d.ntor_geometry),
  ("ntheta", .int d.ntheta),
  ("nzeta", .int d.nzeta),
  ("ns_array", ofInts d.ns_array),
  ("ftol_array", ofDoubles d.ftol_array),
  ("niter_array", ofInts d.niter_array),
  ("phiedge", .float d.phiedge),
  ("ncurr", .int d.ncurr),
  ("pmass_type", .str d.pmass_type),
  ("am", ofDoubles d.am),
  ("am_aux_s", ofDoubles d.am_aux_s),
  ("am_aux_f", ofDoubles d.am_aux_f),
  ("pres_scale", .float d.pres_scale),
  ("gamma", .float d.gamma),
  ("spres_ped", .float d.spres_ped),
  ("piota_type", .str d.piota_type),
  ("ai", ofDoubles d.ai),
  ("ai_aux_s", ofDoubles d.ai_aux_s),
  ("ai_aux_f", ofDoubles d.ai_aux_f),
  ("pcurr_type", .str d.pcurr_type),
  ("ac", ofDoubles d.ac),
  ("ac_aux_s", ofDoubles d.ac_aux_s),
  ("ac_aux_f", ofDoubles d.ac_aux_f),
  ("curtor", .float d.curtor),
  ("bloat", .float d.bloat),
  ("lfreeb", .bool d.lfreeb),
  ("mgrid_file", .str d.mgrid_file),
  ("extcur", ofDoubles d.extcur),
  ("nvacskip", .int d.nvacskip),
  ("free_boundary_method", .str d.free_boundary_method.toString),
  ("nstep", .int d.nstep),
  ("aphi", ofDoubles d.aphi),
  ("delt", .float d.delt),
  ("tcon0", .float d.tcon0),
  ("lforbal", .bool d.lforbal),
  ("iteration_style", .str d.iteration_style.toString),
  ("return_outputs_even_if_not_converged", .bool d.return_outputs_even_if_not_converged),
  ("raxis_c", ofDoubles d.raxis_c),
  ("zaxis_s", ofDoubles d.zaxis_s)]

/-- `ToJson` before the text is produced, `vmec_indata.cc:1137-1239`.  The keys are distinct, so the order of the assignments does
    not matter. -/
def toDoc (d : Indata) : Outcome Json := do
  let asymAxis : List (String × Json) ←
    if d.lasym then do
      let rs ← deref d.raxis_s
      let rs ← eigenValue rs
      let zc ← deref d.zaxis_c
      let zc ← eigenValue zc
      pure [("raxis_s", Json.float rs), ("zaxis_c", Json.float zc)]
    else pure []
  let b ← boundaryLists d
  let boundary := [("rbc", Json.arr b.rbc), ("zbs", Json.arr b.zbs)] ++
    (if d.lasym then [("rbs", Json.arr b.rbs), ("zbc", Json.arr b.zbc)] else [])
  pure (.obj fun k => (plainMembers d ++ asymAxis ++ boundary).lookup k)

/-- `VmecINDATA::ToJson`, `vmec_indata.cc:1137-1240`; `dump` is `nlohmann::json::dump` -/
def toJson (dump : Json → String) (d : Indata) : Outcome String := do
  let doc ← toDoc d
  pure (dump doc)

end Verif.Indata
