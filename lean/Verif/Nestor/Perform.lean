import Verif.Fourier.Orth
import Verif.Nestor.Singular

/-!
# Model of `SingularIntegrals::performUpdate`, `free_boundary/singular_integrals/singular_integrals.cc:337-600`

The four output arrays are one family. `Slp[fl]`, `Slm[fl]`, which are only used within the pass `fl` that computes them,
are local to the pass. Exact real numbers; array bounds are not modelled here.
-/
namespace Verif.Nestor
open Verif Fourier

/-- the output arrays `bvec_sin`, `bvec_cos`, `grpmn_sin`, `grpmn_cos` -/
inductive Out | bSin | bCos | gSin | gCos
  deriving DecidableEq

abbrev Arr := Out → Int → ℝ

/-- what `performUpdate` reads -/
structure Ctx where
  s : Sizes.Sizes
  nfp : Int
  nf : Int
  mf : Int
  ztMin : Int
  ztMax : Int
  fullUpdate : Bool
  bDotN : Int → ℝ
  cmns : Int → ℝ
  /-- the result of `prepareUpdate` at a point of the thread -/
  pt : Int → Point

namespace Ctx
variable (c : Ctx)

/-- row of the reduced poloidal grid, `singular_integrals.cc:398`, 439 and 559 -/
def lr (l : Int) : Int := if l < c.s.nThetaReduced then l else c.s.nThetaEven - l

/-- sign of the sine at the reflected point, `singular_integrals.cc:399`, 440 and 560 -/
noncomputable def sgnmu (l : Int) : ℝ := if l < c.s.nThetaReduced then 1 else -1

/-- `fb_.cosmu[idx_lm]`, ... -/
noncomputable def cosmu (m l : Int) : ℝ := (pol fastToroidal c.s m (c.lr l)).cosmu
noncomputable def sinmu (m l : Int) : ℝ := (pol fastToroidal c.s m (c.lr l)).sinmu
noncomputable def cosnv (n k : Int) : ℝ := (tor fastToroidal c.s c.nfp n k).cosnv
noncomputable def sinnv (n k : Int) : ℝ := (tor fastToroidal c.s c.nfp n k).sinnv

/-- `idx_m_posn`, `singular_integrals.cc:378` -/
def posn (n m : Int) : Int := (c.nf + n) * (c.mf + 1) + m
/-- `idx_m_negn`, `singular_integrals.cc:379` -/
def negn (n m : Int) : Int := (c.nf - n) * (c.mf + 1) + m
/-- `numLocal`, `singular_integrals.cc:339` -/
def numLocal : Int := c.ztMax - c.ztMin

/-- `cmns_factor`, `singular_integrals.cc:381-383` -/
noncomputable def factor (fl n m : Int) : ℝ :=
  c.cmns (lnm c.nf c.mf fl n m) / (fillScale (c.s.mnyq2 + 1) m * fillScale (c.s.nnyq2 + 1) n)

/-- body of the loop over the points for `n == 0 || m == 0`, `singular_integrals.cc:388-430`; `T`, `S` are
    `Tlp[fl] + Tlm[fl]` and `Slp[fl] + Slm[fl]` -/
noncomputable def analysum (fl n m : Int) (T S : Int → ℝ) (kl : Int) (a : Arr) : Arr :=
  let l := kl.tdiv c.s.nZeta
  let k := kl.tmod c.s.nZeta
  let klRel := kl - c.ztMin
  let sinp := (c.sgnmu l * c.sinmu m l * c.cosnv n k - c.cosmu m l * c.sinnv n k) * c.factor fl n m
  let a := addTo a .bSin (c.posn n m) (T klRel * c.bDotN klRel * Sizes.wInt c.s l * sinp)
  let a := if c.fullUpdate then addTo a .gSin (c.posn n m * c.numLocal + klRel) (S klRel * sinp) else a
  if c.s.lasym then
    let cosp := (c.cosmu m l * c.cosnv n k + c.sgnmu l * c.sinmu m l * c.sinnv n k) * c.factor fl n m
    let a := addTo a .bCos (c.posn n m) (T klRel * c.bDotN klRel * Sizes.wInt c.s l * cosp)
    if c.fullUpdate then addTo a .gCos (c.posn n m * c.numLocal + klRel) (S klRel * cosp) else a
  else a

/-- the partial sums `buf_m_posn`, `buf_m_negn` and the arrays -/
structure Buf where
  posn : Int → ℝ
  negn : Int → ℝ
  a : Arr

/-- lane `j` of a pass of the unrolled loop, `singular_integrals.cc:451-510` -/
noncomputable def lane (n m : Int) (Tp Tm Sp Sm : Int → ℝ) (coeff1 coeff2 : ℝ) (l k kl j : Int) (b : Buf) : Buf :=
  let klRel := kl - c.ztMin + j
  let cj := c.bDotN klRel * Sizes.wInt c.s l
  let sinp := coeff1 * c.cosnv n (k + j) - coeff2 * c.sinnv n (k + j)
  let sinm := coeff1 * c.cosnv n (k + j) + coeff2 * c.sinnv n (k + j)
  let a := if c.fullUpdate then
      addTo (addTo b.a .gSin (c.posn n m * c.numLocal + klRel) (Sp klRel * sinp)) .gSin
        (c.negn n m * c.numLocal + klRel) (Sm klRel * sinm)
    else b.a
  { posn := upd b.posn j (b.posn j + Tp klRel * cj * sinp)
    negn := upd b.negn j (b.negn j + Tm klRel * cj * sinm)
    a := a }

/-- body of the tail loop, `singular_integrals.cc:518-545` -/
noncomputable def tail (fl n m : Int) (Tp Tm Sp Sm : Int → ℝ) (l k kl : Int) (a : Arr) : Arr :=
  let klRel := kl - c.ztMin
  let coeff1 := c.sgnmu l * c.sinmu m l * c.cosnv n k * c.factor fl n m
  let coeff2 := c.cosmu m l * c.sinnv n k * c.factor fl n m
  let sinm := coeff1 + coeff2
  let sinp := coeff1 - coeff2
  let cc := c.bDotN klRel * Sizes.wInt c.s l
  let a := addTo a .bSin (c.posn n m) (Tp klRel * cc * sinp)
  let a := addTo a .bSin (c.negn n m) (Tm klRel * cc * sinm)
  if c.fullUpdate then
    addTo (addTo a .gSin (c.posn n m * c.numLocal + klRel) (Sp klRel * sinp)) .gSin
      (c.negn n m * c.numLocal + klRel) (Sm klRel * sinm)
  else a

/-- `remaining`, `singular_integrals.cc:442` -/
def remaining (kl : Int) : Int := min (c.s.nZeta - kl.tmod c.s.nZeta) (c.ztMax - kl)

/-- one pass of the loop over `kl` of `analysum2`, `singular_integrals.cc:434-549`: the points of one row, in blocks of
    four and a tail. The four statements of a block that belong to one lane stand together. -/
noncomputable def row (fl n m : Int) (Tp Tm Sp Sm : Int → ℝ) (kl : Int) (a : Arr) : Arr :=
  let l := kl.tdiv c.s.nZeta
  let k := kl.tmod c.s.nZeta
  let coeff1 := c.sgnmu l * c.sinmu m l * c.factor fl n m
  let coeff2 := c.cosmu m l * c.factor fl n m
  let r := c.remaining kl
  let b := forRange 0 (r.tdiv 4) (fun q b =>
    forRange 0 4 (fun j b => c.lane n m Tp Tm Sp Sm coeff1 coeff2 l (k + 4 * q) (kl + 4 * q) j b) b)
    { posn := fun _ => 0, negn := fun _ => 0, a := a }
  let a := addTo b.a .bSin (c.posn n m) (b.posn 0 + b.posn 1 + b.posn 2 + b.posn 3)
  let a := addTo a .bSin (c.negn n m) (b.negn 0 + b.negn 1 + b.negn 2 + b.negn 3)
  forRange (4 * r.tdiv 4) r (fun i a => c.tail fl n m Tp Tm Sp Sm l (k + i) (kl + i) a) a

/-- the loop over `kl` of `analysum2`, whose body moves `kl` on by `remaining`. If `remaining` were not positive the loop
    of the code would not end; the recursion stops there. -/
noncomputable def rows (fl n m : Int) (Tp Tm Sp Sm : Int → ℝ) (kl : Int) (a : Arr) : Arr :=
  if h : kl < c.ztMax ∧ 0 < c.remaining kl then
    rows fl n m Tp Tm Sp Sm (kl + c.remaining kl) (c.row fl n m Tp Tm Sp Sm kl a)
  else a
  termination_by (c.ztMax - kl).toNat
  decreasing_by omega

/-- body of the loop over the points for the cosine arrays of `analysum2`, `singular_integrals.cc:551-587` -/
noncomputable def analysumCos (fl n m : Int) (Tp Tm Sp Sm : Int → ℝ) (kl : Int) (a : Arr) : Arr :=
  let l := kl.tdiv c.s.nZeta
  let k := kl.tmod c.s.nZeta
  let klRel := kl - c.ztMin
  let coeff1 := c.cosmu m l * c.cosnv n k * c.factor fl n m
  let coeff2 := c.sgnmu l * c.sinmu m l * c.sinnv n k * c.factor fl n m
  let cosm := coeff1 - coeff2
  let cosp := coeff1 + coeff2
  let a := addTo a .bCos (c.posn n m) (Tp klRel * c.bDotN klRel * Sizes.wInt c.s l * cosp)
  let a := addTo a .bCos (c.negn n m) (Tm klRel * c.bDotN klRel * Sizes.wInt c.s l * cosm)
  if c.fullUpdate then
    addTo (addTo a .gCos (c.posn n m * c.numLocal + klRel) (Sp klRel * cosp)) .gCos
      (c.negn n m * c.numLocal + klRel) (Sm klRel * cosm)
  else a

/-- body of the loops over `n` and `m`, `singular_integrals.cc:378-588` -/
noncomputable def mode (fl n m : Int) (Tp Tm Sp Sm : Int → ℝ) (a : Arr) : Arr :=
  if n = 0 ∨ m = 0 then
    forRange c.ztMin c.ztMax (c.analysum fl n m (fun i => Tp i + Tm i) fun i => Sp i + Sm i) a
  else
    let a := c.rows fl n m Tp Tm Sp Sm c.ztMin a
    if c.s.lasym then forRange c.ztMin c.ztMax (c.analysumCos fl n m Tp Tm Sp Sm) a else a

/-- variables of the loop over `fl` -/
structure PState where
  a : Arr
  Tl1p : Int → ℝ
  Tl1m : Int → ℝ
  sgn : ℝ

/-- body of the loop over `fl`, `singular_integrals.cc:358-599`. `Slp`, `Slm` are computed in every pass here; the code
    computes and uses them only if `fullUpdate`. -/
noncomputable def pass (fl : Int) (st : PState) : PState :=
  let Tp := fun i => (c.pt i).Tlp fl
  let Tm := fun i => (c.pt i).Tlm fl
  let Sp := fun i => slp (c.pt i).k fl st.sgn (Tp i) (st.Tl1p i)
  let Sm := fun i => slm (c.pt i).k fl st.sgn (Tm i) (st.Tl1m i)
  { a := forRange 0 (c.nf + 1) (fun n a => forRange 0 (c.mf + 1) (fun m a => c.mode fl n m Tp Tm Sp Sm a) a) st.a
    Tl1p := fun i => if 0 ≤ i ∧ i < c.numLocal then Tp i else st.Tl1p i
    Tl1m := fun i => if 0 ≤ i ∧ i < c.numLocal then Tm i else st.Tl1m i
    sgn := -st.sgn }

/-- the arrays that are set to zero at the beginning, `singular_integrals.cc:341-351` -/
noncomputable def clear (old : Arr) : Arr
  | .bSin => fun _ => 0
  | .bCos => if c.s.lasym then fun _ => 0 else old .bCos
  | .gSin => if c.fullUpdate then fun _ => 0 else old .gSin
  | .gCos => if c.fullUpdate && c.s.lasym then fun _ => 0 else old .gCos

/-- `performUpdate`, `singular_integrals.cc:337-600` -/
noncomputable def performUpdate (old : Arr) : Arr :=
  (forRange 0 (1 + c.nf + c.mf) c.pass { a := c.clear old, Tl1p := fun _ => 0, Tl1m := fun _ => 0, sgn := 1 }).a

end Ctx
end Verif.Nestor
