import Verif.Common.Loop
import Mathlib.Algebra.Field.Basic

/-!
# Model of `common/fourier_basis/fourier_basis.{h,cc}` (conversions and mode tables)

Arrays are functions of the flat index. `mscale`, `nscale` are passed as functions of the mode
number. `signum` is `Int.sign`, `abs` is `|n|`.
-/
namespace Verif.Fourier
open Verif

/-- The compile-time layout policy, `fourier_basis.h:28-62`. -/
structure Layout where
  /-- `PoloidalBasisIndex(m, l, num_m, num_l)` -/
  poloidal : Int → Int → Int → Int → Int
  /-- `ToroidalBasisIndex(n, k, num_n, num_k)` -/
  toroidal : Int → Int → Int → Int → Int
  /-- `ProductIndex(m, n, m_size, n_size)` -/
  product : Int → Int → Int → Int → Int

/-- `FourierBasisFastPoloidalLayout`, `fourier_basis.h:28-44`. -/
def fastPoloidal : Layout where
  poloidal m l _num_m num_l := m * num_l + l
  toroidal n k num_n _num_k := k * num_n + n
  product m n _m_size n_size := m * (n_size + 1) + n

/-- `FourierBasisFastToroidalLayout`, `fourier_basis.h:49-62`. -/
def fastToroidal : Layout where
  poloidal m l num_m _num_l := l * num_m + m
  toroidal n k _num_n num_k := n * num_k + k
  product m n m_size _n_size := n * m_size + m

/-- `absl::c_fill_n(a, count, 0)` -/
def fill0 {K : Type} [Zero K] (a : Int → K) (count : Int) : Int → K :=
  fun i => if 0 ≤ i ∧ i < count then 0 else a i

/-- loop state of the four conversion routines: running mode counter and two output arrays -/
structure Conv (K : Type) where
  mn : Int
  a : Int → K
  b : Int → K

variable {K : Type} [Field K]

/-- `mnMax`, `fourier_basis.cc:359-366`. -/
def mnMax (m_size n_size : Int) : Int := (n_size + 1) + (m_size - 1) * (2 * n_size + 1)

/-- `mnIdx`, `fourier_basis.cc:346-354` (`CHECK_GE` failure is `abort`). -/
def mnIdx (ntor m n : Int) : Outcome Int :=
  if m = 0 then
    if ¬ n ≥ 0 then .abort "no mn index available for n < 0" else .ok n
  else .ok ((ntor + 1) + (m - 1) * (2 * ntor + 1) + (n + ntor))

/-- `cos_to_cc_ss`, `fourier_basis.cc:141-192`. `CHECK_EQ(mn, mnmax)` failure is `abort`. -/
def cos_to_cc_ss (L : Layout) (mscale nscale : Int → K) (fcCos : Int → K) (fcCC0 fcSS0 : Int → K)
    (n_size m_size : Int) : Outcome ((Int → K) × (Int → K)) :=
  let mnmax := (n_size + 1) + (m_size - 1) * (2 * n_size + 1)
  let s0 : Conv K := ⟨0, fill0 fcCC0 (m_size * (n_size + 1)), fill0 fcSS0 (m_size * (n_size + 1))⟩
  let s1 := forRange 0 (n_size + 1) (fun n s =>
    let abs_n := |n|
    let basis_norm := 1 / (mscale 0 * nscale abs_n)
    let normedFC := basis_norm * fcCos s.mn
    let i := L.product 0 abs_n m_size n_size
    { s with a := upd s.a i (s.a i + normedFC), mn := s.mn + 1 }) s0
  let s2 := forRange 1 m_size (fun m s =>
    forRange (-n_size) (n_size + 1) (fun n s =>
      let abs_n := |n|
      let sgn_n := n.sign
      let basis_norm := 1 / (mscale m * nscale abs_n)
      let normedFC := basis_norm * fcCos s.mn
      let i := L.product m abs_n m_size n_size
      { mn := s.mn + 1
        a := upd s.a i (s.a i + normedFC)
        b := if abs_n > 0 then upd s.b i (s.b i + (sgn_n : K) * normedFC) else s.b }) s) s1
  if s2.mn = mnmax then .ok (s2.a, s2.b) else .abort "counting error in cos_to_cc_ss"

/-- `sin_to_sc_cs`, `fourier_basis.cc:194-247`. -/
def sin_to_sc_cs (L : Layout) (mscale nscale : Int → K) (fcSin : Int → K) (fcSC0 fcCS0 : Int → K)
    (n_size m_size : Int) : Outcome ((Int → K) × (Int → K)) :=
  let mnmax := (n_size + 1) + (m_size - 1) * (2 * n_size + 1)
  let s0 : Conv K := ⟨1, fill0 fcSC0 (m_size * (n_size + 1)), fill0 fcCS0 (m_size * (n_size + 1))⟩
  let s1 := forRange 1 (n_size + 1) (fun n s =>
    let abs_n := |n|
    let sgn_n := n.sign
    let basis_norm := 1 / (mscale 0 * nscale abs_n)
    let normedFC := basis_norm * fcSin s.mn
    { s with b := upd s.b (L.product 0 abs_n m_size n_size) (-(sgn_n : K) * normedFC)
             mn := s.mn + 1 }) s0
  let s2 := forRange 1 m_size (fun m s =>
    forRange (-n_size) (n_size + 1) (fun n s =>
      let abs_n := |n|
      let sgn_n := n.sign
      let basis_norm := 1 / (mscale m * nscale abs_n)
      let normedFC := basis_norm * fcSin s.mn
      let i := L.product m abs_n m_size n_size
      { mn := s.mn + 1
        a := upd s.a i (s.a i + normedFC)
        b := if abs_n > 0 then upd s.b i (s.b i + -(sgn_n : K) * normedFC) else s.b }) s) s1
  if s2.mn = mnmax then .ok (s2.a, s2.b) else .abort "counting error in sin_to_sc_cs"

/-- `cc_ss_to_cos`, `fourier_basis.cc:249-295`; the state carries the counter and the output. -/
def cc_ss_to_cos (L : Layout) (mscale nscale : Int → K) (fcCC fcSS : Int → K) (fcCos0 : Int → K)
    (n_size m_size : Int) : Outcome (Int → K) :=
  let mnmax := (n_size + 1) + (m_size - 1) * (2 * n_size + 1)
  let s0 : Int × (Int → K) := (0, fill0 fcCos0 mnmax)
  let s1 := forRange 0 (n_size + 1) (fun n s =>
    let basis_norm := 1 / (mscale 0 * nscale n)
    (s.1 + 1, upd s.2 s.1 (fcCC (L.product 0 n m_size n_size) / basis_norm))) s0
  let s2 := forRange 1 m_size (fun m s =>
    forRange (-n_size) (n_size + 1) (fun n s =>
      let abs_n := |n|
      let sgn_n := n.sign
      let basis_norm := 1 / (mscale m * nscale abs_n)
      let v := if abs_n = 0 then fcCC (L.product m abs_n m_size n_size) / basis_norm
        else
          let raw_cc := fcCC (L.product m abs_n m_size n_size)
          let raw_ss := fcSS (L.product m abs_n m_size n_size)
          (1 / 2) * (raw_cc + (sgn_n : K) * raw_ss) / basis_norm
      (s.1 + 1, upd s.2 s.1 v)) s) s1
  if s2.1 = mnmax then .ok s2.2 else .abort "counting error in cc_ss_to_cos"

/-- `sc_cs_to_sin`, `fourier_basis.cc:297-344`. -/
def sc_cs_to_sin (L : Layout) (mscale nscale : Int → K) (fcSC fcCS : Int → K) (fcSin0 : Int → K)
    (n_size m_size : Int) : Outcome (Int → K) :=
  let mnmax := (n_size + 1) + (m_size - 1) * (2 * n_size + 1)
  let s0 : Int × (Int → K) := (1, fill0 fcSin0 mnmax)
  let s1 := forRange 1 (n_size + 1) (fun n s =>
    let basis_norm := 1 / (mscale 0 * nscale n)
    (s.1 + 1, upd s.2 s.1 (-fcCS (L.product 0 n m_size n_size) / basis_norm))) s0
  let s2 := forRange 1 m_size (fun m s =>
    forRange (-n_size) (n_size + 1) (fun n s =>
      let abs_n := |n|
      let sgn_n := n.sign
      let basis_norm := 1 / (mscale m * nscale abs_n)
      let v := if abs_n = 0 then fcSC (L.product m abs_n m_size n_size) / basis_norm
        else
          let raw_sc := fcSC (L.product m abs_n m_size n_size)
          let raw_cs := fcCS (L.product m abs_n m_size n_size)
          (1 / 2) * (raw_sc - (sgn_n : K) * raw_cs) / basis_norm
      (s.1 + 1, upd s.2 s.1 v)) s) s1
  if s2.1 = mnmax then .ok s2.2 else .abort "counting error in sc_cs_to_sin"

/-- `computeConversionIndices`, `fourier_basis.cc:368-392`; state: counter, `xm`, `xn`. -/
def computeConversionIndices (n_size m_size nfp : Int) : Outcome ((Int → Int) × (Int → Int)) :=
  let mnmax := mnMax m_size n_size
  let s0 : Int × (Int → Int) × (Int → Int) := (0, (fun _ => 0), (fun _ => 0))
  let s1 := forRange 0 (n_size + 1) (fun n s =>
    (s.1 + 1, upd s.2.1 s.1 0, upd s.2.2 s.1 (n * nfp))) s0
  let s2 := forRange 1 m_size (fun m s =>
    forRange (-n_size) (n_size + 1) (fun n s =>
      (s.1 + 1, upd s.2.1 s.1 m, upd s.2.2 s.1 (n * nfp))) s) s1
  if s2.1 = mnmax then .ok s2.2 else .abort "counting error"

/-- Python `_state_mode_table`, `src/vmecpp/_continuation.py:62-76`
    (two lists filled in lockstep, here one list of pairs). -/
def stateModeTable (mpol ntor nfp : Int) : List (Int × Int) :=
  (irange 0 mpol).flatMap fun m =>
    let n_min := if m = 0 then 0 else -ntor
    (irange n_min (ntor + 1)).map fun n => (m, n * nfp)

end Verif.Fourier
