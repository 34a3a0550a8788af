import Verif.Coeffs.Model

/-!
# Model of the hot restart

`vmec/vmec/vmec.cc` (`CheckInitialState`), `vmec/fourier_geometry/fourier_geometry.cc`
(`InitFromState`), `vmec/output_quantities/output_quantities.cc` (the geometry written to the output).
-/
namespace Verif.HotRestart
open Verif Verif.Coeffs Verif.Fourier

/-- the part of the input that `CheckInitialState` reads -/
structure RunSpec where
  lasym : Bool
  mpol : Int
  ntor : Int
  ns_array : List Int
  nfp : Int

/-- `CheckInitialState`, `vmec.cc:62-93`. `ns_array[size-1]` and `ns_array[0]` of an empty array are
    undefined behaviour. -/
def checkInitialState (initial indata : RunSpec) : Outcome Unit :=
  if initial.lasym ≠ indata.lasym then .status "lasym"
  else if initial.mpol ≠ indata.mpol then .status "mpol"
  else if initial.ntor ≠ indata.ntor then .status "ntor"
  else match initial.ns_array.getLast?, indata.ns_array.head? with
    | some a, some b => if a ≠ b then .status "ns_array" else .ok ()
    | _, _ => .ub "ns_array element of an empty array"

/-- a matrix `[mnmax x ns]` -/
abbrev Mat := Int → Int → ℝ

/-- first loop of `InitFromState`, one surface, `fourier_geometry.cc:186-214` -/
noncomputable def initRZBody (x : Ctx) (ms ns : Int → ℝ) (rmnc zmns : Mat) (jF : Int) (s : State) :
    Outcome State := do
  let (cc, ss) ← cos_to_cc_ss fastPoloidal ms ns (fun mn => rmnc mn jF) (fun _ => 0) (fun _ => 0) x.ntor x.mpol
  let (sc, cs) ← sin_to_sc_cs fastPoloidal ms ns (fun mn => zmns mn jF) (fun _ => 0) (fun _ => 0) x.ntor x.mpol
  pure (forRange 0 x.mpol (fun m s => forRange 0 (x.ntor + 1) (fun n s =>
    let idx_mn := m * (x.ntor + 1) + n
    let i := x.idx jF m n
    let s := put s .rcc i (cc idx_mn)
    let s := put s .zsc i (sc idx_mn)
    if x.lthreed then
      let s := put s .rss i (ss idx_mn)
      put s .zcs i (cs idx_mn)
    else s) s) s)

/-- second loop (lambda), one surface, `fourier_geometry.cc:220-246` -/
noncomputable def initLBody (x : Ctx) (ms ns : Int → ℝ) (lmns : Mat) (lamscale : ℝ) (phipF : Int → ℝ)
    (jF : Int) (s : State) : Outcome State := do
  let (sc, cs) ← sin_to_sc_cs fastPoloidal ms ns (fun mn => lmns mn jF) (fun _ => 0) (fun _ => 0) x.ntor x.mpol
  pure (forRange 0 x.mpol (fun m s => forRange 0 (x.ntor + 1) (fun n s =>
    let idx_mn := m * (x.ntor + 1) + n
    let i := x.idx jF m n
    let lambda_unscaling := lamscale / phipF (jF - x.nsMinF1)
    let s := put s .lsc i (sc idx_mn / lambda_unscaling)
    if x.lthreed then put s .lcs i (cs idx_mn / lambda_unscaling) else s) s) s)

/-- the copies of the boundary coefficients to the last surface, `fourier_geometry.cc:252-268` (`std::copy`
    of `mnsize` consecutive entries) -/
def boundaryBlock (x : Ctx) (b : Boundary.Arrays) (s : State) : State := fun c i =>
  let mnsize := x.mpol * (x.ntor + 1)
  let base := (x.ns - 1 - x.nsMin) * x.mpol * (x.ntor + 1)
  if base ≤ i ∧ i < base + mnsize then
    match c with
    | .rcc => b .rbcc (i - base)
    | .zsc => b .zbsc (i - base)
    | .rss => if x.lthreed then b .rbss (i - base) else s .rss i
    | .zcs => if x.lthreed then b .zbcs (i - base) else s .zcs i
    | c => s c i
  else s c i

/-- normalisation of one boundary mode, `fourier_geometry.cc:270-284` -/
noncomputable def normBody (x : Ctx) (ms ns : Int → ℝ) (jF m n : Int) (s : State) : State :=
  let i := x.idx jF m n
  let basis_norm := 1 / (ms m * ns n)
  let s := put s .rcc i (s .rcc i * basis_norm)
  let s := put s .zsc i (s .zsc i * basis_norm)
  if x.lthreed then
    let s := put s .rss i (s .rss i * basis_norm)
    put s .zcs i (s .zcs i * basis_norm)
  else s

/-- boundary taken from `Boundaries`, `fourier_geometry.cc:249-285` -/
noncomputable def copyBoundary (x : Ctx) (ms ns : Int → ℝ) (b : Boundary.Arrays) (s : State) : State :=
  forRange 0 x.mpol (fun m s => forRange 0 (x.ntor + 1) (fun n s => normBody x ms ns (x.ns - 1) m n s) s)
    (boundaryBlock x b s)

/-- the condition of line 249 -/
noncomputable def edge (x : Ctx) (ms ns : Int → ℝ) (b : Option Boundary.Arrays) (s : State) : State :=
  match b with
  | none => s
  | some b => if x.nsMaxF1 = x.ns then copyBoundary x ms ns b s else s

/-- lambda of the axis, one toroidal mode, `fourier_geometry.cc:296-305` -/
noncomputable def axisBody (x : Ctx) (jF m n : Int) (s : State) : State :=
  let i := x.idx jF m n
  let s := put s .lsc i 0
  if x.lthreed then put s .lcs i 0 else s

/-- `InitFromState`, `fourier_geometry.cc:173-306`; `b = none` is the free-boundary case -/
noncomputable def initFromState (x : Ctx) (ms ns : Int → ℝ) (rmnc zmns lmns : Mat) (lamscale : ℝ)
    (phipF : Int → ℝ) (b : Option Boundary.Arrays) (s : State) : Outcome State := do
  let lim := if b.isSome then x.ns - 1 else x.ns
  let s ← forRangeM x.nsMin (min x.nsMax lim) (fun jF s => initRZBody x ms ns rmnc zmns jF s) s
  let s ← forRangeM x.nsMin x.nsMax (fun jF s => initLBody x ms ns lmns lamscale phipF jF s) s
  let s := edge x ms ns b s
  let s := m1Constraint x (1 / 2) (some lim) s
  if x.nsMin = 0 then pure (forRange 0 (x.ntor + 1) (fun n s => axisBody x 0 0 n s) s)
  else pure s

/-- position of mode `(m, n)` of surface `jF` in the gathered results, `output_quantities.cc:1736` -/
def gIdx (x : Ctx) (jF m n : Int) : Int := (jF * (x.ntor + 1) + n) * x.mpol + m

/-- conversion of the m=1 modes to physical form, `output_quantities.cc:4577-4590` (`rss`, `zcs`) and
    `:5190-5202` (`rsc`, `zcc`) -/
noncomputable def unconstrain (x : Ctx) (g : State) : State :=
  let g := if x.lthreed then
      forRange 0 x.ns (fun jF g => forRange 0 (x.ntor + 1) (fun n g =>
        let i := gIdx x jF 1 n
        let old_rss := g .rss i
        let g := put g .rss i (old_rss + g .zcs i)
        put g .zcs i (old_rss - g .zcs i)) g) g
    else g
  if x.lasym then
    forRange 0 x.ns (fun jF g => forRange 0 (x.ntor + 1) (fun n g =>
      let i := gIdx x jF 1 n
      let old_rsc := g .rsc i
      let g := put g .rsc i (old_rsc + g .zcc i)
      put g .zcc i (old_rsc - g .zcc i)) g) g
  else g

/-- the three values written for mode `(m, n)` of surface `jF`, `output_quantities.cc:4607-4663`; an
    entry that the code does not assign keeps its initial value 0 -/
noncomputable def symModes (x : Ctx) (ms ns : Int → ℝ) (g : State) (jF m n : Int) : ℝ × ℝ × ℝ :=
  if m = 0 then
    let i := gIdx x jF 0 n
    let t1 := ms 0 * ns n
    let l := if x.lthreed then
        if jF = 0 then -t1 * (2 * g .lcs (gIdx x 1 0 n) - g .lcs (gIdx x 2 0 n))
        else -t1 * g .lcs i
      else 0
    (t1 * g .rcc i, if x.lthreed then -t1 * g .zcs i else 0, l)
  else
    let i := gIdx x jF m |n|
    let t1 := ms m * ns |n|
    if n = 0 then (t1 * g .rcc i, t1 * g .zsc i, t1 * g .lsc i)
    else if jF > 0 then
      let r := t1 * g .rcc i / 2
      let z := t1 * g .zsc i / 2
      let l := t1 * g .lsc i / 2
      if x.lthreed then
        let sgn : ℝ := (n.sign : ℝ)
        (r + t1 * sgn * g .rss i / 2, z - t1 * sgn * g .zcs i / 2, l - t1 * sgn * g .lcs i / 2)
      else (r, z, l)
    else (0, 0, 0)

/-- the asymmetric counterpart (`rmns`, `zmnc`), `output_quantities.cc:5213-5257`, without lambda -/
noncomputable def asymModes (x : Ctx) (ms ns : Int → ℝ) (g : State) (jF m n : Int) : ℝ × ℝ :=
  if m = 0 then
    let i := gIdx x jF 0 n
    let t1 := ms 0 * ns n
    (if x.lthreed then -t1 * g .rcs i else 0, t1 * g .zcc i)
  else
    let i := gIdx x jF m |n|
    let t1 := ms m * ns |n|
    if n = 0 then (t1 * g .rsc i, t1 * g .zcc i)
    else if jF > 0 then
      let r := t1 * g .rsc i / 2
      let z := t1 * g .zcc i / 2
      if x.lthreed then
        let sgn : ℝ := (n.sign : ℝ)
        (r - t1 * sgn * g .rcs i / 2, z + t1 * sgn * g .zss i / 2)
      else (r, z)
    else (0, 0)

/-- one surface of the output, `output_quantities.cc:4599-4672`: the counter `mn` runs over the modes
    (here it counts the entries written; in the code it is incremented before each assignment) -/
noncomputable def writeSurface (x : Ctx) (ms ns : Int → ℝ) (g : State) (jF : Int) :
    Outcome (Int → ℝ × ℝ × ℝ) :=
  let s0 : Int × (Int → ℝ × ℝ × ℝ) := (0, fun _ => (0, 0, 0))
  let s1 := forRange 0 (x.ntor + 1) (fun n s => (s.1 + 1, upd s.2 s.1 (symModes x ms ns g jF 0 n))) s0
  let s2 := forRange 1 x.mpol (fun m s => forRange (-x.ntor) (x.ntor + 1) (fun n s =>
    (s.1 + 1, upd s.2 s.1 (symModes x ms ns g jF m n))) s) s1
  if s2.1 = mnMax x.mpol x.ntor then .ok s2.2 else .abort "counting error"

/-- the symmetric geometry in the output: `rmnc`, `zmns`, `lmns_full` of surface `jF` as functions of
    the mode counter -/
noncomputable def writeGeometry (x : Ctx) (ms ns : Int → ℝ) (lamscale : ℝ) (phipF : Int → ℝ) (g : State)
    (jF : Int) : Outcome (Int → ℝ × ℝ × ℝ) := do
  let v ← writeSurface x ms ns (unconstrain x g) jF
  pure (fun mn => ((v mn).1, (v mn).2.1, (v mn).2.2 / phipF jF * lamscale))

end Verif.HotRestart
