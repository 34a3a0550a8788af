import Verif.Common.Loop
import Mathlib.Algebra.Field.Basic

/-!
# Model of `TridiagonalSolveSerial`, `common/util/util.cc:54-103`

Exact field arithmetic; arrays are functions of the index; `c` is the flat array `m_c_data` with
`c(k,j)` at `k * c_stride + j`. In C++ a vanishing pivot yields inf/NaN; in a Lean field `x / 0 = 0`,
so the property theorems assume non-vanishing pivots (stated through principal minors).
-/
namespace Verif.Tridiag
open Verif

variable {K : Type} [Field K]

/-- the in-place arrays -/
structure St (K : Type) where
  a : Int → K
  d : Int → K
  b : Int → K
  c : Int → K

/-- `util.cc:67-74`: neutral rows below `jMin` -/
def fillHead (stride jMin nRHS : Int) (s : St K) : St K :=
  forRange 0 jMin (fun j s =>
    { a := upd s.a j 0
      d := upd s.d j 1
      b := upd s.b j 0
      c := forRange 0 nRHS (fun k c => upd c (k * stride + j) 0) s.c }) s

/-- `util.cc:81-87`: elimination of the super-diagonal -/
def elimA (a d b : Int → K) (jMin jMax : Int) : Int → K :=
  forRange (jMin + 1) (jMax - 1) (fun j a => upd a j (a j / (d j - a (j - 1) * b j)))
    (upd a jMin (a jMin / d jMin))

/-- `util.cc:89-101`, one right-hand side -/
def solveOne (a d b : Int → K) (stride jMin jMax k : Int) (c : Int → K) : Int → K :=
  let c := upd c (k * stride + jMin) (c (k * stride + jMin) / d jMin)
  let c := forRange (jMin + 1) jMax (fun j c =>
    upd c (k * stride + j)
      ((c (k * stride + j) - c (k * stride + (j - 1)) * b j) / (d j - a (j - 1) * b j))) c
  forRangeRev jMin (jMax - 1) (fun j c =>
    upd c (k * stride + j) (c (k * stride + j) - a j * c (k * stride + (j + 1)))) c

/-- `TridiagonalSolveSerial` -/
def solve (stride jMin jMax nRHS : Int) (s : St K) : St K :=
  let s := fillHead stride jMin nRHS s
  let a := elimA s.a s.d s.b jMin jMax
  let c := forRange 0 nRHS (fun k c => solveOne a s.d s.b stride jMin jMax k c) s.c
  { a := a, d := s.d, b := s.b, c := c }

end Verif.Tridiag
