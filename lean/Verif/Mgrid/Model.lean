import Verif.Common.Mem
import Verif.Sizes.Model
import Mathlib.Algebra.Order.Floor.Ring
import Mathlib.Algebra.Order.Field.Basic
import Mathlib.Data.Rat.Floor

/-!
# Model of `free_boundary/mgrid_provider/mgrid_provider.cc`

Numbers are elements of an exact ordered field `K`. Sizes are unbounded integers (the overflow of
`numPhi * numZ * numR` is not modelled). The NetCDF library is a parameter: `File` lists what its calls return.
-/
namespace Verif.Mgrid
open Verif

/-- the three arrays `bR`, `bP`, `bZ`, `mgrid_provider.h:48-50` -/
inductive Comp where
  | r | p | z
  deriving DecidableEq, Repr

variable {K : Type} [Field K] [LinearOrder K] [FloorRing K]

/-- members of `MGridProvider`, `mgrid_provider.h:48-85`. `deltaR`, `deltaZ` are `none` when they are the
    quotient by `numR - 1 = 0` (infinite or not a number). -/
structure MGrid (K : Type) where
  b : Comp → Vec K
  nfp : Int
  numR : Int
  minR : K
  maxR : K
  deltaR : Option K
  numZ : Int
  minZ : K
  maxZ : K
  deltaZ : Option K
  numPhi : Int
  nextcur : Int
  mgrid_mode : String
  loaded : Bool
  fixed : Bool
  fixedB : Comp → Vec K

/-- constructor, `mgrid_provider.cc:62-85` -/
def MGrid.init : MGrid K where
  b := fun _ => ⟨0, fun _ => 0⟩
  nfp := -1
  numR := -1
  minR := 0
  maxR := 0
  deltaR := some 0
  numZ := -1
  minZ := 0
  maxZ := 0
  deltaZ := some 0
  numPhi := -1
  nextcur := -1
  mgrid_mode := ""
  loaded := false
  fixed := false
  fixedB := fun _ => ⟨0, fun _ => 0⟩

/-- `(max - min) / (num - 1.0)`, `mgrid_provider.cc:153, 158, 274, 279` -/
def delta (lo hi : K) (num : Int) : Option K :=
  if num = 1 then none else some ((hi - lo) / ((num : K) - 1))

/-- `std::vector<std::vector<std::vector<double>>>` -/
structure Arr3 (K : Type) where
  n0 : Int
  n1 : Int → Int
  n2 : Int → Int → Int
  val : Int → Int → Int → K

def Arr3.get (a : Arr3 K) (i j k : Int) : Outcome K :=
  if (0 ≤ i ∧ i < a.n0) ∧ (0 ≤ j ∧ j < a.n1 i) ∧ 0 ≤ k ∧ k < a.n2 i j then .ok (a.val i j k)
  else .ub "vector index out of bounds"

/-- `ValidateFieldContributionShape`, `mgrid_provider.cc:31-59` -/
def shapeOk (a : Arr3 K) (num_phi num_z num_r : Int) : Bool :=
  decide (a.n0 = num_phi) && (irange 0 num_phi).all (fun i => decide (a.n1 i = num_z) &&
    (irange 0 num_z).all (fun j => decide (a.n2 i j = num_r)))

/-- the header variables of the file, `mgrid_provider.cc:117-133` -/
structure Header (K : Type) where
  nfp : Int
  ir : Int
  rmin : K
  rmax : K
  jz : Int
  zmin : K
  zmax : K
  kp : Int
  nextcur : Int
  mode : String

/-- what the file system and the NetCDF library return for one file -/
structure File (K : Type) where
  isThere : Bool
  readable : Bool
  opens : Bool
  /-- `none`: at least one header variable cannot be read -/
  header : Option (Header K)
  /-- `br_%03d`, `bp_%03d`, `bz_%03d` for `i+1` -/
  field : Int → Comp → Option (Arr3 K)
  closes : Bool

/-- `b[c][i] += x` -/
def addAt (b : Comp → Vec K) (c : Comp) (i : Int) (x : K) : Outcome (Comp → Vec K) := do
  let v ← (b c).get i
  let w ← (b c).set i (v + x)
  pure (Function.update b c w)

/-- body of the accumulation loop of `LoadFile`, `mgrid_provider.cc:226-241` -/
def fileCell (numZ numR : Int) (ar ap az : Arr3 K) (cur : Vec K) (i index_phi index_z index_r : Int)
    (b : Comp → Vec K) : Outcome (Comp → Vec K) := do
  let linear_index := (index_phi * numZ + index_z) * numR + index_r
  let ci ← cur.get i
  let xr ← ar.get index_phi index_z index_r
  let b ← addAt b .r linear_index (xr * ci)
  let xp ← ap.get index_phi index_z index_r
  let b ← addAt b .p linear_index (xp * ci)
  let xz ← az.get index_phi index_z index_r
  addAt b .z linear_index (xz * ci)

/-- the accumulation loops of `LoadFile`, `mgrid_provider.cc:226-241` -/
def fileAccumulate (numPhi numZ numR : Int) (ar ap az : Arr3 K) (cur : Vec K) (i : Int)
    (b : Comp → Vec K) : Outcome (Comp → Vec K) :=
  forRangeM 0 numPhi (fun index_phi b => forRangeM 0 numZ (fun index_z b => forRangeM 0 numR
    (fun index_r b => fileCell numZ numR ar ap az cur i index_phi index_z index_r b) b) b) b

/-- one pass of the loop over coil groups, `mgrid_provider.cc:182-242`. The second component is the outcome so
    far; anything but `ok` has left the function. -/
def fileCoil (f : File K) (cur : Vec K) (i : Int) (s : MGrid K × Outcome Unit) : MGrid K × Outcome Unit :=
  match s.2 with
  | .ok () =>
    match f.field i .r, f.field i .p, f.field i .z with
    | some ar, some ap, some az =>
      if shapeOk ar s.1.numPhi s.1.numZ s.1.numR && shapeOk ap s.1.numPhi s.1.numZ s.1.numR &&
          shapeOk az s.1.numPhi s.1.numZ s.1.numR then
        match fileAccumulate s.1.numPhi s.1.numZ s.1.numR ar ap az cur i s.1.b with
        | .ok b => ({ s.1 with b := b }, .ok ())
        | .ub w => (s.1, .ub w)
        | _ => (s.1, .abort "not reached")
      else (s.1, .status "shape")
    | _, _, _ => (s.1, .status "missing variable")
  | _ => s

/-- the assignments `mgrid_provider.cc:148-163` -/
def setHeader (g : MGrid K) (h : Header K) : MGrid K :=
  { g with
    nfp := h.nfp
    numR := h.ir
    minR := h.rmin
    maxR := h.rmax
    deltaR := delta h.rmin h.rmax h.ir
    numZ := h.jz
    minZ := h.zmin
    maxZ := h.zmax
    deltaZ := delta h.zmin h.zmax h.jz
    numPhi := h.kp
    nextcur := h.nextcur }

/-- `LoadFile`, `mgrid_provider.cc:87-253`: new members and returned status -/
def loadFile (g : MGrid K) (f : File K) (cur : Vec K) : MGrid K × Outcome Unit :=
  if !f.isThere then (g, .status "not found") else
  if !f.readable then (g, .status "permission denied") else
  if !f.opens then (g, .status "internal") else
  match f.header with
  | none => (g, .status "header")
  | some h =>
    let g : MGrid K := setHeader g h
    if cur.size ≠ g.nextcur then (g, .status "number of currents") else
    let g : MGrid K := { g with mgrid_mode := h.mode }
    match (Vec.zero (g.numPhi * g.numZ * g.numR) : Outcome (Vec K)) with
    | .ok v =>
      let g : MGrid K := { g with b := fun _ => v }
      let s := forRange 0 g.nextcur (fileCoil f cur) (g, .ok ())
      match s.2 with
      | .ok () =>
        if !f.closes then (s.1, .status "close") else
        ({ s.1 with loaded := true, fixed := false }, .ok ())
      | _ => s
    | _ => (g, .ub "negative size")

/-- `makegrid::MagneticFieldResponseTable`, `free_boundary`/`makegrid_lib.h`: grid parameters and one matrix per
    component, row = coil group, column = grid point -/
structure Table (K : Type) where
  nfp : Int
  numR : Int
  minR : K
  maxR : K
  numZ : Int
  minZ : K
  maxZ : K
  numPhi : Int
  normalize : Bool
  b : Comp → Mat K

/-- body of the accumulation loop of `LoadFields`, `mgrid_provider.cc:297-303` -/
def tableCell (t : Table K) (cur : Vec K) (i linear_index : Int) (b : Comp → Vec K) :
    Outcome (Comp → Vec K) := do
  let ci ← cur.get i
  let xr ← (t.b .r).get i linear_index
  let b ← addAt b .r linear_index (xr * ci)
  let xp ← (t.b .p).get i linear_index
  let b ← addAt b .p linear_index (xp * ci)
  let xz ← (t.b .z).get i linear_index
  addAt b .z linear_index (xz * ci)

/-- `LoadFields`, `mgrid_provider.cc:255-310` -/
def loadFields (g : MGrid K) (t : Table K) (cur : Vec K) : MGrid K × Outcome Unit :=
  if cur.size ≠ (t.b .p).rows then (g, .status "number of currents") else
  let g : MGrid K := { g with
    nfp := t.nfp
    numR := t.numR
    minR := t.minR
    maxR := t.maxR
    deltaR := delta t.minR t.maxR t.numR
    numZ := t.numZ
    minZ := t.minZ
    maxZ := t.maxZ
    deltaZ := delta t.minZ t.maxZ t.numZ
    numPhi := t.numPhi
    nextcur := cur.size
    mgrid_mode := if t.normalize then "S" else "R" }
  let num_grid_points := g.numPhi * g.numZ * g.numR
  match (Vec.zero num_grid_points : Outcome (Vec K)) with
  | .ok v =>
    match forRangeM 0 g.nextcur (fun i b => forRangeM 0 num_grid_points (fun l b =>
        tableCell t cur i l b) b) (fun _ => v) with
    | .ok b => ({ g with b := b, loaded := true, fixed := false }, .ok ())
    | .ub w => (g, .ub w)
    | _ => (g, .abort "not reached")
  | _ => (g, .ub "negative size")

/-- `SetFixedMagneticField`, `mgrid_provider.cc:312-322` -/
def setFixed (g : MGrid K) (fb : Comp → Vec K) : MGrid K :=
  { g with fixedB := fb, loaded := true, fixed := true }

/-- index of the lower grid line and relative position in its cell, `mgrid_provider.cc:367-378`:
    `ir = int(floor((r - minR) / deltaR))`, `ri = minR + ir * deltaR`, `pr = (r - ri) / deltaR`.
    Division by zero gives an infinite or undefined quotient, whose conversion to `int` is undefined behaviour.
    An infinite `deltaR` makes `0 * deltaR` not a number, which spreads to all results. -/
def locate (lo : K) (dl : Option K) (x : K) : Outcome (Int × K) :=
  match dl with
  | none => .throws "not a number"
  | some d =>
    if d = 0 then .ub "conversion of a non-finite number to int" else
    let i := ⌊(x - lo) / d⌋
    let xi := lo + (i : K) * d
    .ok (i, (x - xi) / d)

/-- one value of the weighted sum, `mgrid_provider.cc:393-398` -/
def combine (v : Vec K) (w11 w12 w21 w22 : K) (a11 a12 a21 a22 : Int) : Outcome K := do
  let x11 ← v.get a11
  let x12 ← v.get a12
  let x21 ← v.get a21
  let x22 ← v.get a22
  pure (w11 * x11 + w12 * x12 + w21 * x21 + w22 * x22)

/-- body of the loop of `interpolate` for point `kl`, `mgrid_provider.cc:346-398` (the warning flags do not
    influence the result and are dropped) -/
def interpPoint (g : MGrid K) (nZeta kl : Int) (rL zL : K) : Outcome (Comp → K) := do
  if nZeta = 0 then .ub "modulo zero" else
  let k := kl.tmod nZeta
  let r := max g.minR (min rL g.maxR)
  let z := max g.minZ (min zL g.maxZ)
  let (ir, pr) ← locate g.minR g.deltaR r
  let (jz, qz) ← locate g.minZ g.deltaZ z
  let ir1 := min (g.numR - 1) (ir + 1)
  let jz1 := min (g.numZ - 1) (jz + 1)
  let w22 := pr * qz
  let w21 := pr - w22
  let w12 := qz - w22
  let w11 := 1 + w22 - (pr + qz)
  let kj_i_ := (k * g.numZ + jz) * g.numR + ir
  let kj1i_ := (k * g.numZ + jz1) * g.numR + ir
  let kj_i1 := (k * g.numZ + jz) * g.numR + ir1
  let kj1i1 := (k * g.numZ + jz1) * g.numR + ir1
  let br ← combine (g.b .r) w11 w12 w21 w22 kj_i_ kj1i_ kj_i1 kj1i1
  let bp ← combine (g.b .p) w11 w12 w21 w22 kj_i_ kj1i_ kj_i1 kj1i1
  let bz ← combine (g.b .z) w11 w12 w21 w22 kj_i_ kj1i_ kj_i1 kj1i1
  pure (fun c => match c with | .r => br | .p => bp | .z => bz)

/-- `m_interpBr[kl - ztMin] = ...` for the three components, `mgrid_provider.cc:334-338, 393-398` -/
def store (out : Comp → Vec K) (i : Int) (x : Comp → K) : Outcome (Comp → Vec K) := do
  let o1 ← (out .r).set i (x .r)
  let o2 ← (out .p).set i (x .p)
  let o3 ← (out .z).set i (x .z)
  pure (fun c => match c with | .r => o1 | .p => o2 | .z => o3)

/-- the copy of one point of a fixed field, `mgrid_provider.cc:335-337` -/
def fixedPoint (g : MGrid K) (kl : Int) : Outcome (Comp → K) := do
  let br ← (g.fixedB .r).get kl
  let bp ← (g.fixedB .p).get kl
  let bz ← (g.fixedB .z).get kl
  pure (fun c => match c with | .r => br | .p => bp | .z => bz)

/-- `interpolate`, `mgrid_provider.cc:325-430` -/
def interpolate (g : MGrid K) (ztMin ztMax nZeta : Int) (rLCFS zLCFS : Vec K) (out : Comp → Vec K) :
    Outcome (Comp → Vec K) :=
  if !g.loaded then .abort "no mgrid loaded" else
  if g.fixed then
    forRangeM ztMin ztMax (fun kl out => do store out (kl - ztMin) (← fixedPoint g kl)) out
  else
    forRangeM ztMin ztMax (fun kl out => do
      let r ← rLCFS.get kl
      let z ← zLCFS.get kl
      store out (kl - ztMin) (← interpPoint g nZeta kl r z)) out

/-- the check of `Vmec::run` before a free-boundary run, `vmec/vmec/vmec.cc:239-245` -/
def runCheck (g : MGrid K) (indata_nzeta : Int) : Outcome Unit :=
  if g.numPhi ≠ indata_nzeta then .status "phi grid points" else .ok ()

end Verif.Mgrid
