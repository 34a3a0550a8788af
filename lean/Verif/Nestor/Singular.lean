import Mathlib.Analysis.SpecialFunctions.Log.Basic
import Mathlib.Analysis.SpecialFunctions.Pow.Real
import Verif.Common.Fam
import Verif.Common.Assign

/-!
# Model of `SingularIntegrals`, `free_boundary/singular_integrals/singular_integrals.cc`: coefficients and recurrences

Exact real numbers for `double`. The arrays with one entry per point of the thread (`ap[kl]`, `Tlp[fl][kl]`, ...) are one
array of records; array bounds are not modelled here.
-/
namespace Verif.Nestor
open Verif

/-! ## `computeCoefficients`, `singular_integrals.cc:82-155` -/

/-- position of `(l, n, m)` in `cmn` and `cmns`, `singular_integrals.cc:118` -/
def lnm (nf mf l n m : Int) : Int := (l * (nf + 1) + n) * (mf + 1) + m

/-- variables of the loop over `l` -/
structure CmnState where
  cmn : Int → ℝ
  f1 : ℝ
  f2 : ℝ
  f3 : ℝ
  sign : ℝ

/-- the factors before the loop over `l`, `singular_integrals.cc:99-106` -/
noncomputable def cmnFactors (s_mn k_mn : Int) : ℝ × ℝ :=
  forRange 1 (k_mn + 1) (fun i (f : ℝ × ℝ) => (f.1 * ((s_mn - i + 1 : Int) : ℝ), f.2 * (i : ℝ))) (1, 1)

/-- body of the loop over `l`, `singular_integrals.cc:117-127` -/
noncomputable def cmnStep (nf mf n m j_mn k_mn l : Int) (st : CmnState) : CmnState where
  cmn := upd st.cmn (lnm nf mf l n m) (st.f1 / (st.f2 * st.f3) * st.sign)
  f1 := st.f1 * (((l + 2 + j_mn) * (j_mn - l) : Int) * 0.25)
  f2 := st.f2 * ((l + 2 + k_mn : Int) * 0.5)
  f3 := st.f3 * ((l + 2 - k_mn : Int) * 0.5)
  sign := -st.sign

/-- body of the loop over `m`, `singular_integrals.cc:90-127`. The loop `for (l = k_mn; l <= j_mn; l += 2)` is written
    with the number `i` of the pass, `l = k_mn + 2 i`. -/
noncomputable def cmnMode (nf mf n m : Int) (cmn : Int → ℝ) : Int → ℝ :=
  let i_mn := m - n
  let j_mn := m + n
  let k_mn := |i_mn|
  let s_mn := max m n
  let f := cmnFactors s_mn k_mn
  let sign : ℝ := if (max 0 (n - m)).tmod 2 = 0 then 1 else -1
  (forRange 0 ((j_mn - k_mn).tdiv 2 + 1) (fun i st => cmnStep nf mf n m j_mn k_mn (k_mn + 2 * i) st)
    { cmn := cmn, f1 := f.1, f2 := f.2, f3 := 1, sign := sign }).cmn

/-- `cmn`, `singular_integrals.cc:83-129` -/
noncomputable def computeCmn (nf mf : Int) : Int → ℝ :=
  forRange 0 (nf + 1) (fun n c => forRange 0 (mf + 1) (fun m c => cmnMode nf mf n m c) c) fun _ => 0

/-- `cmns`, `singular_integrals.cc:131-154`; `old` is what the array held after `resize` -/
noncomputable def computeCmns (nf mf : Int) (cmn old : Int → ℝ) : Int → ℝ :=
  forRange 0 (nf + 1) (fun n c => forRange 0 (mf + 1) (fun m c => forRange 0 (1 + mf + nf) (fun l c =>
    let base := l * (mf + 1) * (nf + 1)
    let n_m_ := base + (n * (mf + 1) + m)
    let n1m_ := base + ((n - 1) * (mf + 1) + m)
    let n_m1 := base + (n * (mf + 1) + (m - 1))
    let n1m1 := base + ((n - 1) * (mf + 1) + (m - 1))
    upd c n_m_
      (if m = 0 ∧ n = 0 then cmn n_m_
       else if m = 0 ∧ n > 0 then (cmn n_m_ + cmn n1m_) / 2
       else if m > 0 ∧ n = 0 then (cmn n_m_ + cmn n_m1) / 2
       else (cmn n_m_ + cmn n1m_ + cmn n_m1 + cmn n1m1) / 2)) c) c) old

/-! ## `prepareUpdate`, `singular_integrals.cc:176-335` -/

/-- first and second fundamental form at a point, as `SurfaceGeometry` stores them: `guu, guv, gvv, auu, auv, avv` -/
structure Forms where
  a : ℝ
  b2 : ℝ
  c : ℝ
  A : ℝ
  B2 : ℝ
  C : ℝ

/-- what `prepareUpdate` keeps per point, without the `T_l` -/
structure Consts where
  ap : ℝ
  am : ℝ
  d : ℝ
  sqrtc2 : ℝ
  sqrta2 : ℝ
  delta4 : ℝ
  Ap : ℝ
  Am : ℝ
  D : ℝ
  R1p : ℝ
  R1m : ℝ
  R0p : ℝ
  R0m : ℝ
  Ra1p : ℝ
  Ra1m : ℝ

/-- `singular_integrals.cc:182-210`: the constants of a point; `old` are the values of the last full update -/
noncomputable def constsOf (f : Forms) (fullUpdate : Bool) (old : Consts) : Consts :=
  let ap := f.a + f.b2 + f.c
  let am := f.a - f.b2 + f.c
  let d := f.c - f.a
  let sqrtc2 := 2 * Real.sqrt f.c
  let sqrta2 := 2 * Real.sqrt f.a
  let p := { old with ap := ap, am := am, d := d, sqrtc2 := sqrtc2, sqrta2 := sqrta2 }
  if fullUpdate then
    let delta4 := ap * am - d * d
    let Ap := f.A + f.B2 + f.C
    let Am := f.A - f.B2 + f.C
    let D := f.C - f.A
    { p with
      delta4 := delta4, Ap := Ap, Am := Am, D := D
      R1p := (Ap * (delta4 - d * d) / ap - Am * ap + 2 * D * d) / delta4
      R1m := (Am * (delta4 - d * d) / am - Ap * am + 2 * D * d) / delta4
      R0p := (-Ap * am * d / ap - Am * d + 2 * D * am) / delta4
      R0m := (-Am * ap * d / am - Ap * d + 2 * D * ap) / delta4
      Ra1p := Ap / ap
      Ra1m := Am / am }
  else p

/-- `T0p` (`A = ap`) and `T0m` (`A = am`), `singular_integrals.cc:212-221` -/
noncomputable def tZero (A d sqrtc2 sqrta2 : ℝ) : ℝ :=
  Real.log ((Real.sqrt A * sqrtc2 + A + d) / (Real.sqrt A * sqrta2 - A + d)) / Real.sqrt A

/-- variables of the forward recurrence -/
structure Fwd where
  T : Int → ℝ
  prev : ℝ
  sgn : ℝ

/-- forward recurrence, `singular_integrals.cc:285-297` (`A = ap`, `B = am`) and 321-333 (`A = am`, `B = ap`) -/
noncomputable def forward (kL : Int) (A B d sqrtc2 sqrta2 : ℝ) (T : Int → ℝ) : Int → ℝ :=
  (forRange 0 kL (fun fl (st : Fwd) =>
    let sgn := -st.sgn
    let rhs := sqrtc2 + sgn * sqrta2
    let next := (rhs - ((2 * fl + 1 : Int) : ℝ) * d * st.T fl - (fl : ℝ) * B * st.prev) / (A * ((fl + 1 : Int) : ℝ))
    { T := upd st.T (fl + 1) next, prev := st.T fl, sgn := sgn }) { T := T, prev := 0, sgn := 1 }).T

/-- variables of the backward recurrence -/
structure Bwd where
  T : Int → ℝ
  hi : ℝ
  cur : ℝ

/-- `kTailExtra`, `singular_integrals.cc:243` -/
def kTailExtra : Int := 50

/-- the loop of the backward recurrence, `singular_integrals.cc:267-279` and 303-315 -/
noncomputable def backwardLoop (kL : Int) (A B d sqrtc2 sqrta2 : ℝ) (T : Int → ℝ) : Bwd :=
  forRangeRev 1 (kL + kTailExtra + 1) (fun l (st : Bwd) =>
    let rhs := sqrtc2 + (if l.tmod 2 = 0 then -1 else 1) * sqrta2
    let lo := (rhs - ((2 * l + 1 : Int) : ℝ) * d * st.cur - ((l + 1 : Int) : ℝ) * A * st.hi) / ((l : ℝ) * B)
    { T := if l - 1 ≤ kL then upd st.T (l - 1) lo else st.T, hi := st.cur, cur := lo })
    { T := T, hi := 0, cur := 1e-300 }

/-- backward recurrence with the rescaling, `singular_integrals.cc:266-283` and 302-319 -/
noncomputable def backward (kL : Int) (A B d sqrtc2 sqrta2 t0 : ℝ) (T : Int → ℝ) : Int → ℝ :=
  let T := (backwardLoop kL A B d sqrtc2 sqrta2 T).T
  let scale := t0 / T 0
  forRange 0 (kL + 1) (fun l T => upd T l (T l * scale)) T

/-- `useBackwardP` (`A = ap`, `B = am`) and `useBackwardM`, `singular_integrals.cc:246-261` -/
noncomputable def useBackward (kL : Int) (A B : ℝ) : Prop :=
  (kL : ℝ) * (if B > A ∧ A > 0 then Real.log (B / A) else 0) > 10 * 2.30258509299

open Classical in
/-- `Tlp[.][kl]` (`A = ap`, `B = am`), `singular_integrals.cc:263-297`, and `Tlm[.][kl]` (`A = am`, `B = ap`), 299-333 -/
noncomputable def tValues (kL : Int) (A B d sqrtc2 sqrta2 : ℝ) (old : Int → ℝ) : Int → ℝ :=
  let t0 := tZero A d sqrtc2 sqrta2
  let T := upd old 0 t0
  if useBackward kL A B then backward kL A B d sqrtc2 sqrta2 t0 T else forward kL A B d sqrtc2 sqrta2 T

/-- everything `prepareUpdate` stores for a point -/
structure Point where
  k : Consts
  Tlp : Int → ℝ
  Tlm : Int → ℝ

/-- body of the loop over the points, `singular_integrals.cc:181-334` -/
noncomputable def preparePoint (nf mf : Int) (fullUpdate : Bool) (f : Forms) (old : Point) : Point :=
  let k := constsOf f fullUpdate old.k
  { k := k
    Tlp := tValues (mf + nf) k.ap k.am k.d k.sqrtc2 k.sqrta2 old.Tlp
    Tlm := tValues (mf + nf) k.am k.ap k.d k.sqrtc2 k.sqrta2 old.Tlm }

/-- `prepareUpdate`, `singular_integrals.cc:176-335` -/
noncomputable def prepareUpdate (nf mf numLocal : Int) (fullUpdate : Bool) (f : Int → Forms) (old : Int → Point) : Int → Point :=
  forRange 0 numLocal (fun kl p => upd p kl (preparePoint nf mf fullUpdate (f kl) (p kl))) old

/-- `Slp[fl][kl]`, `singular_integrals.cc:365-368`; `T1` is `Tl1p[kl]` and `sgn` changes sign in every pass of `fl` -/
noncomputable def slp (k : Consts) (fl : Int) (sgn T T1 : ℝ) : ℝ :=
  (k.R1p * fl + k.Ra1p) * T + k.R0p * fl * T1 - (k.R0p + k.R1p) / k.sqrtc2 + sgn * (k.R0p - k.R1p) / k.sqrta2

/-- `Slm[fl][kl]`, `singular_integrals.cc:369-372` -/
noncomputable def slm (k : Consts) (fl : Int) (sgn T T1 : ℝ) : ℝ :=
  (k.R1m * fl + k.Ra1m) * T + k.R0m * fl * T1 - (k.R0m + k.R1m) / k.sqrtc2 + sgn * (k.R0m - k.R1m) / k.sqrta2

end Verif.Nestor
