import Verif.Common.Fam
import Verif.Fourier.Basis
import Verif.Partition.Model

/-!
# Model of the toroidal transforms, `vmec/ideal_mhd_model/dft_toroidal.cc` and `fft_toroidal.cc`

Exact real numbers for `double`. The arrays of one kind are a family (`Common/Fam.lean`), indexed with the flat index of
the code; array bounds are not modelled here. Stellarator-symmetric, three-dimensional variants.
-/
namespace Verif.Transform
open Verif Verif.Fourier Partition

/-- real-space geometry, `dft_data.h` -/
inductive GArr | r1 | ru | rv | z1 | zu | zv | lu | lv
  deriving DecidableEq

/-- `RealSpaceGeometry`: `geo a true` is `a_e`, `geo a false` is `a_o` -/
inductive Arr | geo (a : GArr) (even : Bool) | rCon | zCon
  deriving DecidableEq

/-- `FourierGeometry` (`rmncc` ...) and `FourierForces` (`frcc` ...) -/
inductive Coef | rcc | rss | zsc | zcs | lsc | lcs
  deriving DecidableEq

/-- `RealSpaceForces` -/
inductive FArr | armn | azmn | blmn | brmn | bzmn | clmn | crmn | czmn | frcon | fzcon
  deriving DecidableEq

/-- the twelve partial sums of one poloidal mode; the order is that of `enum Slot`, `fft_toroidal.cc:213-226` -/
inductive Slot | rmkcc | rmkss | rmkcc_n | rmkss_n | zmksc | zmkcs | zmksc_n | zmkcs_n | lmksc | lmkcs | lmksc_n | lmkcs_n
  deriving DecidableEq

/-- value of the enumerator -/
def Slot.num : Slot → Int
  | .rmkcc => 0 | .rmkss => 1 | .rmkcc_n => 2 | .rmkss_n => 3 | .zmksc => 4 | .zmkcs => 5 | .zmksc_n => 6 | .zmkcs_n => 7
  | .lmksc => 8 | .lmkcs => 9 | .lmksc_n => 10 | .lmkcs_n => 11

/-- what both transforms get: sizes, radial range of the thread, condensation factors, √s on the full grid -/
structure Ctx where
  s : Sizes.Sizes
  r : Ranges
  ns : Int
  lfreeb : Bool
  /-- vacuum pressure state `kInitialized` or `kActive` -/
  vacuum : Bool
  xmpq : Int → ℝ
  sqrtSF : Int → ℝ

variable (c : Ctx)

/-- `fb.…[idx_ml]` with `idx_ml = m * nThetaReduced + l` -/
noncomputable def polAt (m l : Int) : PolEntry := polTables fastPoloidal c.s (m * c.s.nThetaReduced + l)

/-- `fb.…[idx_kn]` with `idx_kn = k * (nnyq2 + 1) + n` -/
noncomputable def torAt (k n : Int) : TorEntry := torTables fastPoloidal c.s c.s.nfp (k * (c.s.nnyq2 + 1) + n)

/-- `m_even = m % 2 == 0` -/
def isEven (m : Int) : Bool := m.tmod 2 == 0

/-- `idx_mn`; `j0` is the first surface of the array -/
def idxMn (j0 jF m n : Int) : Int := ((jF - j0) * c.s.mpol + m) * (c.s.ntor + 1) + n

/-- `idx_kl_base` -/
def idxKl (j0 jF k : Int) : Int := ((jF - j0) * c.s.nZeta + k) * c.s.nThetaEff

/-- `con_factor`, `dft_toroidal.cc:214-215` -/
def conFactor (jF m : Int) : ℝ := if isEven m then c.xmpq m else c.xmpq m * c.sqrtSF (jF - c.r.nsMinF1)

/-- first surface that gets mode `m`, `dft_toroidal.cc:229-232` -/
def jMin (m : Int) : Int := if m = 0 ∨ m = 1 then 0 else 1

/-! ## Geometry, direct sums: `FourierToReal3DSymmFastPoloidal`, `dft_toroidal.cc:177-336` -/

/-- loop body over `n`, `dft_toroidal.cc:264-275` -/
def torTerm (x : Coef → ℝ) (t : TorEntry) : Slot → ℝ
  | .rmkcc => x .rcc * t.cosnv
  | .rmkcc_n => x .rcc * t.sinnvn
  | .rmkss => x .rss * t.sinnv
  | .rmkss_n => x .rss * t.cosnvn
  | .zmksc => x .zsc * t.cosnv
  | .zmksc_n => x .zsc * t.sinnvn
  | .zmkcs => x .zcs * t.sinnv
  | .zmkcs_n => x .zcs * t.cosnvn
  | .lmksc => x .lsc * t.cosnv
  | .lmksc_n => x .lsc * t.sinnvn
  | .lmkcs => x .lcs * t.sinnv
  | .lmkcs_n => x .lcs * t.cosnvn

/-- the loop over `n`, `dft_toroidal.cc:239-276` -/
noncomputable def torSums (x : Coef → Int → ℝ) (jF m k : Int) : Slot → ℝ :=
  forRange 0 (c.s.ntor + 1) (fun n y => fun q => y q + torTerm (fun a => x a (idxMn c c.r.nsMinF1 jF m n)) (torAt c k n) q)
    (fun _ => 0)

/-- the loops over `l`, `dft_toroidal.cc:282-332` -/
noncomputable def poloidalDft (jF m k : Int) (y : Slot → ℝ) (g : Arr → Int → ℝ) : Arr → Int → ℝ :=
  let e := isEven m
  let base := idxKl c c.r.nsMinF1 jF k
  let g := forRange 0 c.s.nThetaReduced (fun l g =>
    let p := polAt c m l
    let g := addTo g (.geo .ru e) (base + l) (y .rmkcc * p.sinmum + y .rmkss * p.cosmum)
    let g := addTo g (.geo .zu e) (base + l) (y .zmksc * p.cosmum + y .zmkcs * p.sinmum)
    addTo g (.geo .lu e) (base + l) (y .lmksc * p.cosmum + y .lmkcs * p.sinmum)) g
  let g := forRange 0 c.s.nThetaReduced (fun l g =>
    let p := polAt c m l
    let g := addTo g (.geo .rv e) (base + l) (y .rmkcc_n * p.cosmu + y .rmkss_n * p.sinmu)
    let g := addTo g (.geo .zv e) (base + l) (y .zmksc_n * p.sinmu + y .zmkcs_n * p.cosmu)
    addTo g (.geo .lv e) (base + l) (-(y .lmksc_n * p.sinmu + y .lmkcs_n * p.cosmu))) g
  let g := forRange 0 c.s.nThetaReduced (fun l g =>
    let p := polAt c m l
    let g := addTo g (.geo .r1 e) (base + l) (y .rmkcc * p.cosmu + y .rmkss * p.sinmu)
    addTo g (.geo .z1 e) (base + l) (y .zmksc * p.sinmu + y .zmkcs * p.cosmu)) g
  if c.r.nsMinF ≤ jF ∧ jF < c.r.nsMaxFIncludingLcfs then
    forRange 0 c.s.nThetaReduced (fun l g =>
      let p := polAt c m l
      let i := idxKl c c.r.nsMinF jF k + l
      let g := addTo g .rCon i ((y .rmkcc * p.cosmu + y .rmkss * p.sinmu) * conFactor c jF m)
      addTo g .zCon i ((y .zmksc * p.sinmu + y .zmkcs * p.cosmu) * conFactor c jF m)) g
  else g

/-- `dft_toroidal.cc:177-336`; the arrays are filled with zeros before the loops -/
noncomputable def fourierToRealDft (x : Coef → Int → ℝ) : Arr → Int → ℝ :=
  forRange c.r.nsMinF1 c.r.nsMaxF1 (fun jF g =>
    forRange 0 c.s.mpol (fun m g =>
      if jF < jMin m then g
      else forRange 0 c.s.nZeta (fun k g => poloidalDft c jF m k (torSums c x jF m k) g) g) g)
    (fun _ _ => 0)

/-! ## Forces, direct sums: `ForcesToFourier3DSymmFastPoloidal`, `dft_toroidal.cc:14-175` -/

/-- `jMaxRZ`, `dft_toroidal.cc:25-32` -/
def jMaxRZ : Int :=
  if c.lfreeb ∧ c.vacuum then min c.r.nsMaxF c.ns else min c.r.nsMaxF (c.ns - 1)

/-- loop body over `l`, `dft_toroidal.cc:73-102` -/
noncomputable def polTerm (xmpq : ℝ) (f : FArr → ℝ) (p : PolEntry) : Slot → ℝ :=
  let tempR := f .armn + xmpq * f .frcon
  let tempZ := f .azmn + xmpq * f .fzcon
  fun
  | .lmksc => f .blmn * p.cosmumi
  | .lmkcs => f .blmn * p.sinmumi
  | .lmkcs_n => -(f .clmn * p.cosmui)
  | .lmksc_n => -(f .clmn * p.sinmui)
  | .rmkcc_n => -(f .crmn * p.cosmui)
  | .zmkcs_n => -(f .czmn * p.cosmui)
  | .rmkss_n => -(f .crmn * p.sinmui)
  | .zmksc_n => -(f .czmn * p.sinmui)
  | .rmkcc => tempR * p.cosmui + f .brmn * p.sinmumi
  | .rmkss => tempR * p.sinmui + f .brmn * p.cosmumi
  | .zmksc => tempZ * p.sinmui + f .bzmn * p.cosmumi
  | .zmkcs => tempZ * p.cosmui + f .bzmn * p.sinmumi

/-- the loop over `l`, `dft_toroidal.cc:73-102`. The lambda-only loop (`145-158`) and the loops of the FFT variant
    (`fft_toroidal.cc:495-521`, `622-635`) have the same body, the lambda-only ones with just its first four lines. -/
noncomputable def polSums (d : FArr → Bool → Int → ℝ) (jF m k : Int) : Slot → ℝ :=
  forRange 0 c.s.nThetaReduced (fun l y => fun q =>
    y q + polTerm (c.xmpq m) (fun a => d a (isEven m) (idxKl c c.r.nsMinF jF k + l)) (polAt c m l) q) (fun _ => 0)

/-- `dft_toroidal.cc:113-116` -/
noncomputable def addRZ (jF m k n : Int) (y : Slot → ℝ) (f : Coef → Int → ℝ) : Coef → Int → ℝ :=
  let t := torAt c k n
  let i := idxMn c c.r.nsMinF jF m n
  let f := addTo f .rcc i (y .rmkcc * t.cosnv + y .rmkcc_n * t.sinnvn)
  let f := addTo f .rss i (y .rmkss * t.sinnv + y .rmkss_n * t.cosnvn)
  let f := addTo f .zsc i (y .zmksc * t.cosnv + y .zmksc_n * t.sinnvn)
  addTo f .zcs i (y .zmkcs * t.sinnv + y .zmkcs_n * t.cosnvn)

/-- `dft_toroidal.cc:119-120` and `169-170` -/
noncomputable def addL (jF m k n : Int) (y : Slot → ℝ) (f : Coef → Int → ℝ) : Coef → Int → ℝ :=
  let t := torAt c k n
  let i := idxMn c c.r.nsMinF jF m n
  let f := addTo f .lsc i (y .lmksc * t.cosnv + y .lmksc_n * t.sinnvn)
  addTo f .lcs i (y .lmkcs * t.sinnv + y .lmkcs_n * t.cosnvn)

/-- number of poloidal modes of a surface, `dft_toroidal.cc:38` -/
def mMax (jF : Int) : Int := if jF = 0 then 1 else c.s.mpol

/-- `dft_toroidal.cc:14-175` -/
noncomputable def forcesToFourierDft (d : FArr → Bool → Int → ℝ) : Coef → Int → ℝ :=
  let f := forRange c.r.nsMinF (jMaxRZ c) (fun jF f =>
    forRange 0 (mMax c jF) (fun m f =>
      forRange 0 c.s.nZeta (fun k f =>
        let y := polSums c d jF m k
        forRange 0 (c.s.ntor + 1) (fun n f =>
          let f := addRZ c jF m k n y f
          if 1 ≤ jF then addL c jF m k n y f else f) f) f) f) (fun _ _ => 0)
  forRange (jMaxRZ c) c.r.nsMaxFIncludingLcfs (fun jF f =>
    forRange 0 c.s.mpol (fun m f =>
      forRange 0 c.s.nZeta (fun k f =>
        let y := polSums c d jF m k
        forRange 0 (c.s.ntor + 1) (fun n f => addL c jF m k n y f) f) f) f) f

/-! ## FFT variants -/

/-- interleaved real/imaginary pair, `fft_toroidal.cc:22` -/
structure Cpx where
  re : ℝ
  im : ℝ

/-- `nhalf = n / 2 + 1`, `fft_toroidal.cc:29` -/
def nhalf : Int := c.s.nZeta.tdiv 2 + 1

/-- `fb.nscale` -/
noncomputable def nscale : Int → ℝ := fillScale (c.s.nnyq2 + 1)

/-- common shape of the `Fill…` functions: `X[0] = x0`, `X[n] = f n` for `n ≤ ntor`, zeros up to `nhalf` -/
def fill (x0 : Cpx) (f : Int → Cpx) (base : Int) (X : Int → Cpx) : Int → Cpx :=
  let X := upd X (base + 0) x0
  let X := forRange 1 (c.s.ntor + 1) (fun n X => upd X (base + n) (f n)) X
  forRange (c.s.ntor + 1) (nhalf c) (fun n X => upd X (base + n) ⟨0, 0⟩) X

/-- `FillDct`, `fft_toroidal.cc:89-101` -/
noncomputable def fillDct (spec : Int → ℝ) (base : Int) : (Int → Cpx) → Int → Cpx :=
  fill c ⟨spec 0 * nscale c 0, 0⟩ (fun n => ⟨spec n * nscale c n * 0.5, 0⟩) base

/-- `FillDst`, `fft_toroidal.cc:106-118` -/
noncomputable def fillDst (spec : Int → ℝ) (base : Int) : (Int → Cpx) → Int → Cpx :=
  fill c ⟨0, 0⟩ (fun n => ⟨0, -spec n * nscale c n * 0.5⟩) base

/-- `FillDctDeriv`, `fft_toroidal.cc:124-136` -/
noncomputable def fillDctDeriv (spec : Int → ℝ) (base : Int) : (Int → Cpx) → Int → Cpx :=
  fill c ⟨0, 0⟩ (fun n => ⟨0, spec n * (n * c.s.nfp : Int) * nscale c n * 0.5⟩) base

/-- `FillDstDeriv`, `fft_toroidal.cc:142-154` -/
noncomputable def fillDstDeriv (spec : Int → ℝ) (base : Int) : (Int → Cpx) → Int → Cpx :=
  fill c ⟨0, 0⟩ (fun n => ⟨spec n * (n * c.s.nfp : Int) * nscale c n * 0.5, 0⟩) base

/-- `kBatch`, `fft_toroidal.h` -/
def kBatch : Int := 12

/-- `X_slot`, `out_slot` -/
def xSlot (m : Int) (q : Slot) : Int := (m * kBatch + q.num) * nhalf c

/-- `Y_slot`, `in_slot` -/
def ySlot (m : Int) (q : Slot) : Int := (m * kBatch + q.num) * c.s.nZeta

/-- `X_slot(m, q)` for a loop variable `q` -/
def xSlotNum (m q : Int) : Int := (m * kBatch + q) * nhalf c

/-- one pass of the packing loop, `fft_toroidal.cc:239-274` -/
noncomputable def packMode (x : Coef → Int → ℝ) (jF m : Int) (X : Int → Cpx) : Int → Cpx :=
  if jF < jMin m then
    forRange 0 kBatch (fun q X => forRange 0 (nhalf c) (fun n X => upd X (xSlotNum c m q + n) ⟨0, 0⟩) X) X
  else
    let ptr := fun (a : Coef) (n : Int) => x a (((jF - c.r.nsMinF1) * c.s.mpol + m) * (c.s.ntor + 1) + n)
    let X := fillDct c (ptr .rcc) (xSlot c m .rmkcc) X
    let X := fillDst c (ptr .rss) (xSlot c m .rmkss) X
    let X := fillDctDeriv c (ptr .rcc) (xSlot c m .rmkcc_n) X
    let X := fillDstDeriv c (ptr .rss) (xSlot c m .rmkss_n) X
    let X := fillDct c (ptr .zsc) (xSlot c m .zmksc) X
    let X := fillDst c (ptr .zcs) (xSlot c m .zmkcs) X
    let X := fillDctDeriv c (ptr .zsc) (xSlot c m .zmksc_n) X
    let X := fillDstDeriv c (ptr .zcs) (xSlot c m .zmkcs_n) X
    let X := fillDct c (ptr .lsc) (xSlot c m .lmksc) X
    let X := fillDst c (ptr .lcs) (xSlot c m .lmkcs) X
    let X := fillDctDeriv c (ptr .lsc) (xSlot c m .lmksc_n) X
    fillDstDeriv c (ptr .lcs) (xSlot c m .lmkcs_n) X

/-- `seg += …` on `nThetaReduced` consecutive entries -/
def segAdd (a : Arr) (base : Int) (v : Int → ℝ) (g : Arr → Int → ℝ) : Arr → Int → ℝ :=
  forRange 0 c.s.nThetaReduced (fun l g => addTo g a (base + l) (v l)) g

/-- body of the loop over `k`, `fft_toroidal.cc:320-364` -/
noncomputable def poloidalFft (jF m k : Int) (y : Slot → ℝ) (g : Arr → Int → ℝ) : Arr → Int → ℝ :=
  let e := isEven m
  let base := idxKl c c.r.nsMinF1 jF k
  let p := fun l => polAt c m l
  let g := segAdd c (.geo .ru e) base (fun l => y .rmkcc * (p l).sinmum + y .rmkss * (p l).cosmum) g
  let g := segAdd c (.geo .zu e) base (fun l => y .zmksc * (p l).cosmum + y .zmkcs * (p l).sinmum) g
  let g := segAdd c (.geo .lu e) base (fun l => y .lmksc * (p l).cosmum + y .lmkcs * (p l).sinmum) g
  let g := segAdd c (.geo .rv e) base (fun l => y .rmkcc_n * (p l).cosmu + y .rmkss_n * (p l).sinmu) g
  let g := segAdd c (.geo .zv e) base (fun l => y .zmksc_n * (p l).sinmu + y .zmkcs_n * (p l).cosmu) g
  let g := segAdd c (.geo .lv e) base (fun l => -(y .lmksc_n * (p l).sinmu + y .lmkcs_n * (p l).cosmu)) g
  let g := segAdd c (.geo .r1 e) base (fun l => y .rmkcc * (p l).cosmu + y .rmkss * (p l).sinmu) g
  let g := segAdd c (.geo .z1 e) base (fun l => y .zmksc * (p l).sinmu + y .zmkcs * (p l).cosmu) g
  if c.r.nsMinF ≤ jF ∧ jF < c.r.nsMaxFIncludingLcfs then
    let i := idxKl c c.r.nsMinF jF k
    let g := segAdd c .rCon i (fun l => (y .rmkcc * (p l).cosmu + y .rmkss * (p l).sinmu) * conFactor c jF m) g
    segAdd c .zCon i (fun l => (y .zmksc * (p l).sinmu + y .zmkcs * (p l).cosmu) * conFactor c jF m) g
  else g

/-- the library: batched complex-to-real and real-to-complex transforms (new output from input and old output) -/
structure Lib where
  c2r : (Int → Cpx) → (Int → ℝ) → Int → ℝ
  r2c : (Int → ℝ) → (Int → Cpx) → Int → Cpx

/-- `FourierToReal3DSymmFastPoloidalFft`, `fft_toroidal.cc:162-367`; `X`, `Y` are the thread-local scratch arrays with
    whatever an earlier call has left in them (growing them, 205-210, keeps the old contents) -/
noncomputable def fourierToRealFft (lib : Lib) (x : Coef → Int → ℝ) (X : Int → Cpx) (Y : Int → ℝ) : Arr → Int → ℝ :=
  (forRange c.r.nsMinF1 c.r.nsMaxF1 (fun jF (st : (Int → Cpx) × (Int → ℝ) × (Arr → Int → ℝ)) =>
    let X := forRange 0 c.s.mpol (fun m X => packMode c x jF m X) st.1
    let Y := lib.c2r X st.2.1
    let g := forRange 0 c.s.mpol (fun m g =>
      if jF < jMin m then g
      else forRange 0 c.s.nZeta (fun k g => poloidalFft c jF m k (fun q => Y (ySlot c m q + k)) g) g) st.2.2
    (X, Y, g)) (X, Y, fun _ _ => 0)).2.2

/-- stores at the end of the loop over `k`, `fft_toroidal.cc:523-534` -/
noncomputable def storeRow (m k : Int) (y : Slot → ℝ) (b : Int → ℝ) : Int → ℝ :=
  let b := upd b (ySlot c m .rmkcc + k) (y .rmkcc)
  let b := upd b (ySlot c m .rmkss + k) (y .rmkss)
  let b := upd b (ySlot c m .rmkcc_n + k) (y .rmkcc_n)
  let b := upd b (ySlot c m .rmkss_n + k) (y .rmkss_n)
  let b := upd b (ySlot c m .zmksc + k) (y .zmksc)
  let b := upd b (ySlot c m .zmkcs + k) (y .zmkcs)
  let b := upd b (ySlot c m .zmksc_n + k) (y .zmksc_n)
  let b := upd b (ySlot c m .zmkcs_n + k) (y .zmkcs_n)
  let b := upd b (ySlot c m .lmksc + k) (y .lmksc)
  let b := upd b (ySlot c m .lmkcs + k) (y .lmkcs)
  let b := upd b (ySlot c m .lmksc_n + k) (y .lmksc_n)
  upd b (ySlot c m .lmkcs_n + k) (y .lmkcs_n)

/-- `fft_toroidal.cc:637-640` -/
noncomputable def storeLambda (m k : Int) (y : Slot → ℝ) (b : Int → ℝ) : Int → ℝ :=
  let b := upd b (ySlot c m .lmksc + k) (y .lmksc)
  let b := upd b (ySlot c m .lmkcs + k) (y .lmkcs)
  let b := upd b (ySlot c m .lmksc_n + k) (y .lmksc_n)
  upd b (ySlot c m .lmkcs_n + k) (y .lmkcs_n)

/-- filling of the input slots of a surface, `fft_toroidal.cc:438-536` -/
noncomputable def fillForces (d : FArr → Bool → Int → ℝ) (jF : Int) (b : Int → ℝ) : Int → ℝ :=
  let b := if mMax c jF < c.s.mpol then
      forRange (mMax c jF * kBatch * c.s.nZeta) (c.s.mpol * kBatch * c.s.nZeta) (fun i b => upd b i 0) b
    else b
  forRange 0 (mMax c jF) (fun m b =>
    forRange 0 c.s.nZeta (fun k b => storeRow c m k (polSums c d jF m k) b) b) b

/-- `fft_toroidal.cc:571-578` -/
noncomputable def addRZFft (jF m n : Int) (F : Slot → Cpx) (f : Coef → Int → ℝ) : Coef → Int → ℝ :=
  let nfp_n : ℝ := n * c.s.nfp
  let i := idxMn c c.r.nsMinF jF m n
  let f := addTo f .rcc i ((F .rmkcc).re + nfp_n * (F .rmkcc_n).im)
  let f := addTo f .rss i (-(F .rmkss).im + nfp_n * (F .rmkss_n).re)
  let f := addTo f .zsc i ((F .zmksc).re + nfp_n * (F .zmksc_n).im)
  addTo f .zcs i (-(F .zmkcs).im + nfp_n * (F .zmkcs_n).re)

/-- `fft_toroidal.cc:586-591` and `662-667` -/
noncomputable def addLFft (jF m n : Int) (F : Slot → Cpx) (f : Coef → Int → ℝ) : Coef → Int → ℝ :=
  let nfp_n : ℝ := n * c.s.nfp
  let i := idxMn c c.r.nsMinF jF m n
  let f := addTo f .lsc i ((F .lmksc).re + nfp_n * (F .lmksc_n).im)
  addTo f .lcs i (-(F .lmkcs).im + nfp_n * (F .lmkcs_n).re)

/-- accumulation of one mode, `fft_toroidal.cc:542-593` -/
noncomputable def gather (jF m : Int) (F : Slot → Int → Cpx) (f : Coef → Int → ℝ) : Coef → Int → ℝ :=
  let f := forRange 0 (c.s.ntor + 1) (fun n f => addRZFft c jF m n (fun q => F q n) f) f
  if 1 ≤ jF then forRange 0 (c.s.ntor + 1) (fun n f => addLFft c jF m n (fun q => F q n) f) f else f

/-- `ForcesToFourier3DSymmFastPoloidalFft`, `fft_toroidal.cc:373-670` -/
noncomputable def forcesToFourierFft (lib : Lib) (d : FArr → Bool → Int → ℝ) (b : Int → ℝ) (o : Int → Cpx) : Coef → Int → ℝ :=
  let st := forRange c.r.nsMinF (jMaxRZ c) (fun jF (st : (Int → ℝ) × (Int → Cpx) × (Coef → Int → ℝ)) =>
    let b := fillForces c d jF st.1
    let o := lib.r2c b st.2.1
    let f := forRange 0 (mMax c jF) (fun m f => gather c jF m (fun q n => o (xSlot c m q + n)) f) st.2.2
    (b, o, f)) (b, o, fun _ _ => 0)
  (forRange (jMaxRZ c) c.r.nsMaxFIncludingLcfs (fun jF (st : (Int → ℝ) × (Int → Cpx) × (Coef → Int → ℝ)) =>
    let b := forRange 0 c.s.mpol (fun m b =>
      forRange 0 c.s.nZeta (fun k b => storeLambda c m k (polSums c d jF m k) b) b) st.1
    let o := lib.r2c b st.2.1
    let f := forRange 0 c.s.mpol (fun m f =>
      forRange 0 (c.s.ntor + 1) (fun n f => addLFft c jF m n (fun q => o (xSlot c m q + n)) f) f) st.2.2
    (b, o, f)) st).2.2

end Verif.Transform
