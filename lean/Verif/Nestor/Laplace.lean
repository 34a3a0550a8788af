import Verif.Nestor.PerformSum
import Verif.Fourier.Orth
import Verif.Common.Fam

/-! # Model of `LaplaceSolver` (`free_boundary/laplace_solver/laplace_solver.cc`)

Exact reals.  Products of Eigen matrices are sums.  `bcos`, `actemp`, ..., `amat_...` are functions of the tuple of indices that the code flattens; the
arrays shared with other classes (`greenp`, `gstore`, `grpmn`, `matrixShare`, `bvecShare`) have the flat index.  Array bounds are not modelled.
`dgetrf`, `dgetrs` are a relation: what they return solves the system. -/
namespace Verif.Nestor
open Verif Fourier Finset

/-- the two kinds of basis functions -/
inductive Par | sin | cos
  deriving DecidableEq

structure LCtx where
  s : Sizes.Sizes
  nf : Int
  mf : Int
  ztMin : Int
  ztMax : Int

namespace LCtx
variable (c : LCtx)

def numLocal : Int := c.ztMax - c.ztMin
def mnpd : Int := (c.mf + 1) * (2 * c.nf + 1)

/-- `laplace_solver.cc:98-121` -/
noncomputable def cosnvS (n k : Int) : ℝ := (tor fastToroidal c.s c.s.nfp n k).cosnv * (1 / fillScale (c.s.nnyq2 + 1) n)
noncomputable def sinnvS (n k : Int) : ℝ := (tor fastToroidal c.s c.s.nfp n k).sinnv * (1 / fillScale (c.s.nnyq2 + 1) n)
noncomputable def cosmuiS (l m : Int) : ℝ := (pol fastToroidal c.s m l).cosmui * (1 / fillScale (c.s.mnyq2 + 1) m)
noncomputable def sinmuiS (l m : Int) : ℝ := (pol fastToroidal c.s m l).sinmui * (1 / fillScale (c.s.mnyq2 + 1) m)

def revL (l : Int) : Int := (c.s.nThetaEven - l).tmod c.s.nThetaEven
def revK (k : Int) : Int := (c.s.nZeta - k).tmod c.s.nZeta

/-- `kernel_odd`, `kernel_even`, `laplace_solver.cc:147-157`, and `gstore_symm`, `gstore_asym`, 213-226 -/
noncomputable def part (p : Par) (g : Int → ℝ) (off l k : Int) : ℝ :=
  match p with
  | .sin => (g (off + (l * c.s.nZeta + k)) - g (off + (c.revL l * c.s.nZeta + c.revK k))) * 0.5
  | .cos => (g (off + (l * c.s.nZeta + k)) + g (off + (c.revL l * c.s.nZeta + c.revK k))) * 0.5

/-- `g1_symm`, `g1_asym` (cosine) and `g2_symm`, `g2_asym` (sine), `laplace_solver.cc:159-167` -/
noncomputable def g1 (p : Par) (g : Int → ℝ) (off l n : Int) : ℝ := ∑ k ∈ Ico 0 c.s.nZeta, c.cosnvS n k * c.part p g off l k
noncomputable def g2 (p : Par) (g : Int → ℝ) (off l n : Int) : ℝ := ∑ k ∈ Ico 0 c.s.nZeta, c.sinnvS n k * c.part p g off l k

/-- innermost body, `laplace_solver.cc:170-203` -/
noncomputable def grpBody (greenp : Int → ℝ) (klp l m n : Int) (a : Par → Int → ℝ) : Par → Int → ℝ :=
  let klpRel := klp - c.ztMin
  let klpOff := klpRel * c.s.nThetaEven * c.s.nZeta
  let posn := (c.nf + n) * (c.mf + 1) + m
  let negn := (c.nf - n) * (c.mf + 1) + m
  let gcos_symm := c.g1 .sin greenp klpOff l n * c.sinmuiS l m
  let gsin_symm := c.g2 .sin greenp klpOff l n * c.cosmuiS l m
  let a := addTo a .sin (posn * c.numLocal + klpRel) (gcos_symm - gsin_symm)
  let a := if n > 0 then addTo a .sin (negn * c.numLocal + klpRel) (gcos_symm + gsin_symm) else a
  if c.s.lasym then
    let gcos_asym := c.g1 .cos greenp klpOff l n * c.cosmuiS l m
    let gsin_asym := c.g2 .cos greenp klpOff l n * c.sinmuiS l m
    let a := addTo a .cos (posn * c.numLocal + klpRel) (gcos_asym + gsin_asym)
    if n > 0 then addTo a .cos (negn * c.numLocal + klpRel) (gcos_asym - gsin_asym) else a
  else a

/-- `TransformGreensFunctionDerivative`, `laplace_solver.cc:125-207` -/
noncomputable def transformGreen (greenp : Int → ℝ) : Par → Int → ℝ :=
  forRange c.ztMin c.ztMax (fun klp a => forRange 0 c.s.nThetaReduced (fun l a => forRange 0 (c.mf + 1) (fun m a =>
    forRange 0 (c.nf + 1) (fun n a => c.grpBody greenp klp l m n a) a) a) a) fun _ _ => 0

/-- `AccumulateFullGrpmn`, `laplace_solver.cc:230-246` -/
noncomputable def accumulate (grp singular : Par → Int → ℝ) : Par → Int → ℝ := fun p i =>
  match p with
  | .sin => grp .sin i + singular .sin i * (1 / c.s.nfp)
  | .cos => if c.s.lasym then grp .cos i + singular .cos i * (1 / c.s.nfp) else grp .cos i

/-- `bcos`, `bsin` and their `_asym` companions at `n = all_n - nf`, `laplace_solver.cc:256-301` -/
noncomputable def bcos (p : Par) (gstore : Int → ℝ) (n l : Int) : ℝ :=
  if 0 ≤ n then c.g1 p gstore 0 l n else c.g1 p gstore 0 l (-n)
noncomputable def bsin (p : Par) (gstore : Int → ℝ) (n l : Int) : ℝ :=
  if 0 ≤ n then c.g2 p gstore 0 l n else -c.g2 p gstore 0 l (-n)

/-- `bvec_sin`, `bvec_cos` at `(all_n - nf, m)`, `laplace_solver.cc:387-413` -/
noncomputable def bvec (gstore : Int → ℝ) (p : Par) (n m : Int) : ℝ :=
  match p with
  | .sin => ∑ l ∈ Ico 0 c.s.nThetaReduced, c.sinmuiS l m * c.bcos .sin gstore n l - ∑ l ∈ Ico 0 c.s.nThetaReduced, c.cosmuiS l m * c.bsin .sin gstore n l
  | .cos => ∑ l ∈ Ico 0 c.s.nThetaReduced, c.cosmuiS l m * c.bcos .cos gstore n l + ∑ l ∈ Ico 0 c.s.nThetaReduced, c.sinmuiS l m * c.bsin .cos gstore n l

/-- `actemp` (of `grpmn_sin`), `actemp_cos` (of `grpmn_cos`) for `n ≥ 0`, `laplace_solver.cc:303-350`; the loops over `l`, `mn`, `n` are outside -/
noncomputable def actempPos (grp : Par → Int → ℝ) (p : Par) (mn n l : Int) : ℝ :=
  forRange 0 c.s.nZeta (fun k acc =>
    let klp := l * c.s.nZeta + k
    if klp < c.ztMin ∨ klp ≥ c.ztMax then acc else acc + c.cosnvS n k * grp p (mn * c.numLocal + (klp - c.ztMin))) 0
noncomputable def astempPos (grp : Par → Int → ℝ) (p : Par) (mn n l : Int) : ℝ :=
  forRange 0 c.s.nZeta (fun k acc =>
    let klp := l * c.s.nZeta + k
    if klp < c.ztMin ∨ klp ≥ c.ztMax then acc else acc + c.sinnvS n k * grp p (mn * c.numLocal + (klp - c.ztMin))) 0
/-- with the copy to negative `n`, `laplace_solver.cc:352-369` -/
noncomputable def actemp (grp : Par → Int → ℝ) (p : Par) (mn n l : Int) : ℝ :=
  if 0 ≤ n then c.actempPos grp p mn n l else c.actempPos grp p mn (-n) l
noncomputable def astemp (grp : Par → Int → ℝ) (p : Par) (mn n l : Int) : ℝ :=
  if 0 ≤ n then c.astempPos grp p mn n l else -c.astempPos grp p mn (-n) l

/-- `amat_sin_sin`, `amat_sin_cos`, `amat_cos_sin`, `amat_cos_cos`: the first index is the row `mn`, the other two are mode `(all_n - nf, m)` of the
column, `laplace_solver.cc:423-479` -/
noncomputable def amat (grp : Par → Int → ℝ) (row col : Par) (mn n m : Int) : ℝ :=
  let T := c.s.nThetaReduced
  match row, col with
  | .sin, .sin => ∑ l ∈ Ico 0 T, c.sinmuiS l m * c.actemp grp .sin mn n l - ∑ l ∈ Ico 0 T, c.cosmuiS l m * c.astemp grp .sin mn n l
  | .sin, .cos => ∑ l ∈ Ico 0 T, c.cosmuiS l m * c.actemp grp .sin mn n l + ∑ l ∈ Ico 0 T, c.sinmuiS l m * c.astemp grp .sin mn n l
  | .cos, .sin =>
    ∑ l ∈ Ico 0 T, c.sinmuiS l m * (0.5 * (c.actemp grp .cos mn n l - c.actemp grp .cos mn n (c.revL l)))
      - ∑ l ∈ Ico 0 T, c.cosmuiS l m * (0.5 * (c.astemp grp .cos mn n l + c.astemp grp .cos mn n (c.revL l)))
  | .cos, .cos =>
    ∑ l ∈ Ico 0 T, c.cosmuiS l m * (0.5 * (c.actemp grp .cos mn n l + c.actemp grp .cos mn n (c.revL l)))
      + ∑ l ∈ Ico 0 T, c.sinmuiS l m * (0.5 * (c.astemp grp .cos mn n l - c.astemp grp .cos mn n (c.revL l)))

end LCtx

/-- assignment and addition at an index -/
def addAt (a : Int → ℝ) (i : Int) (v : ℝ) : Int → ℝ := fun j => if j = i then a j + v else a j
def setAt (a : Int → ℝ) (i : Int) (v : ℝ) : Int → ℝ := fun j => if j = i then v else a j

/-- the system: the arrays shared by the threads -/
structure System where
  lasym : Bool
  nf : Int
  mf : Int

namespace System
variable (y : System)
def mnpd : Int := (y.mf + 1) * (2 * y.nf + 1)
def dim : Int := if y.lasym then 2 * y.mnpd else y.mnpd

/-- contribution of a thread to `matrixShare`, `laplace_solver.cc:497-523`; `b row col i j` is `amat_row_col[j * mnpd + i]` -/
noncomputable def addBlocks (b : Par → Par → Int → Int → ℝ) (a : Int → ℝ) : Int → ℝ :=
  if !y.lasym then
    forRange 0 y.mnpd (fun j a => forRange 0 y.mnpd (fun i a => addAt a (j * y.mnpd + i) (b .sin .sin i j)) a) a
  else
    forRange 0 y.mnpd (fun j a => forRange 0 y.mnpd (fun i a =>
      let a := addAt a (i + j * y.dim) (b .sin .sin i j)
      let a := addAt a (i + (j + y.mnpd) * y.dim) (b .sin .cos i j)
      let a := addAt a ((i + y.mnpd) + j * y.dim) (b .cos .sin i j)
      addAt a ((i + y.mnpd) + (j + y.mnpd) * y.dim) (b .cos .cos i j)) a) a

/-- rows of the modes `m = 0`, `n < 0`, `laplace_solver.cc:534-552` -/
noncomputable def zeroRows (a : Int → ℝ) : Int → ℝ :=
  forRange 0 y.mnpd (fun mnp a => forRange 0 y.nf (fun all_n a =>
    if !y.lasym then setAt a ((mnp * (2 * y.nf + 1) + all_n) * (y.mf + 1) + 0) 0
    else
      let row := all_n * (y.mf + 1) + 0
      let a := setAt a (row + mnp * y.dim) 0
      let a := setAt a (row + (mnp + y.mnpd) * y.dim) 0
      let a := setAt a ((row + y.mnpd) + mnp * y.dim) 0
      setAt a ((row + y.mnpd) + (mnp + y.mnpd) * y.dim) 0) a) a

/-- `laplace_solver.cc:554-572` -/
noncomputable def addDiagonal (a : Int → ℝ) : Int → ℝ :=
  if !y.lasym then forRange 0 y.mnpd (fun mn a => addAt a (mn * y.mnpd + mn) 0.5) a
  else
    let mn0 := y.nf * (y.mf + 1)
    let a := forRange 0 y.mnpd (fun mn a =>
      addAt (addAt a (mn + mn * y.dim) 0.5) ((mn + y.mnpd) + (mn + y.mnpd) * y.dim) 0.5) a
    addAt a ((mn0 + y.mnpd) + (mn0 + y.mnpd) * y.dim) 0.5

/-- `BuildMatrix`, `laplace_solver.cc:482-577`; the threads add in the order in which they enter the critical section -/
noncomputable def buildMatrix (threads : List (Par → Par → Int → Int → ℝ)) : Int → ℝ :=
  y.addDiagonal (y.zeroRows (threads.foldl (fun a b => y.addBlocks b a) fun _ => 0))

/-- right-hand side, `laplace_solver.cc:605-656`; a thread brings `bvec` and `bvec_singular` -/
noncomputable def addVec (nfp : ℝ) (v : (Par → Int → ℝ) × (Par → Int → ℝ)) (a : Int → ℝ) : Int → ℝ :=
  let a := forRange 0 y.mnpd (fun i a => addAt a i (v.1 .sin i + v.2 .sin i * (1 / nfp))) a
  if y.lasym then forRange 0 y.mnpd (fun i a => addAt a (y.mnpd + i) (v.1 .cos i + v.2 .cos i * (1 / nfp))) a else a

noncomputable def buildVector (nfp : ℝ) (threads : List ((Par → Int → ℝ) × (Par → Int → ℝ))) : Int → ℝ :=
  forRange 0 y.nf (fun all_n a =>
    let a := setAt a (all_n * (y.mf + 1) + 0) 0
    if y.lasym then setAt a (y.mnpd + all_n * (y.mf + 1) + 0) 0 else a) (threads.foldl (fun a v => y.addVec nfp v a) fun _ => 0)

/-- what `dgetrf` and `dgetrs` compute: the matrix is stored by columns -/
def Solves (A b x : Int → ℝ) : Prop := ∀ i, 0 ≤ i → i < y.dim → ∑ j ∈ Ico 0 y.dim, A (i + j * y.dim) * x j = b i

end System
end Verif.Nestor
