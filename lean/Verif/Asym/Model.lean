import Verif.Transform.Model
import Verif.Transform.Axisym

/-!
# Model of the transforms of a run without stellarator symmetry

`FourierToReal3DAsymFastPoloidal` and `ForcesToFourier3DAsymFastPoloidal`, `dft_toroidal.cc:338-658`; `symrzl` and
`symforce`, `ideal_mhd_model.cc:1512-1602` and `2721-2785`; the way `geometryFromFourier` (1120-1135) and
`forcesToFourier` (2538-2559) put them together. Conventions of `Transform/Model.lean`; the `…_asym` arrays are a second
family with the same names.
-/
namespace Verif.Asym
open Verif Verif.Fourier Partition Transform

/-- the coefficients that break the symmetry: `rmnsc` ... of `FourierGeometry`, `frsc` ... of `FourierForces` -/
inductive CoefA | rsc | rcs | zcc | zss | lcc | lss
  deriving DecidableEq

/-- partial sums of one poloidal mode, `dft_toroidal.cc:422-433` -/
inductive SlotA | rmksc | rmksc_n | rmkcs | rmkcs_n | zmkcc | zmkcc_n | zmkss | zmkss_n | lmkcc | lmkcc_n | lmkss | lmkss_n
  deriving DecidableEq

variable (c : Ctx)

/-! ## Geometry: `FourierToReal3DAsymFastPoloidal`, `dft_toroidal.cc:345-487` -/

/-- one term of the scalar products, `dft_toroidal.cc:422-433` -/
def torTermA (x : CoefA → ℝ) (t : TorEntry) : SlotA → ℝ
  | .rmksc => x .rsc * t.cosnv
  | .rmksc_n => x .rsc * t.sinnvn
  | .rmkcs => x .rcs * t.sinnv
  | .rmkcs_n => x .rcs * t.cosnvn
  | .zmkcc => x .zcc * t.cosnv
  | .zmkcc_n => x .zcc * t.sinnvn
  | .zmkss => x .zss * t.sinnv
  | .zmkss_n => x .zss * t.cosnvn
  | .lmkcc => x .lcc * t.cosnv
  | .lmkcc_n => x .lcc * t.sinnvn
  | .lmkss => x .lss * t.sinnv
  | .lmkss_n => x .lss * t.cosnvn

/-- the scalar products over `n`, `dft_toroidal.cc:401-433` -/
noncomputable def torSumsA (x : CoefA → Int → ℝ) (jF m k : Int) : SlotA → ℝ :=
  forRange 0 (c.s.ntor + 1) (fun n y => fun q => y q + torTermA (fun a => x a (idxMn c c.r.nsMinF1 jF m n)) (torAt c k n) q)
    (fun _ => 0)

/-- body of the loop over `k`, `dft_toroidal.cc:436-484` -/
noncomputable def poloidalA (jF m k : Int) (y : SlotA → ℝ) (g : Arr → Int → ℝ) : Arr → Int → ℝ :=
  let e := isEven m
  let base := idxKl c c.r.nsMinF1 jF k
  let p := fun l => polAt c m l
  let g := segAdd c (.geo .ru e) base (fun l => y .rmksc * (p l).cosmum + y .rmkcs * (p l).sinmum) g
  let g := segAdd c (.geo .zu e) base (fun l => y .zmkcc * (p l).sinmum + y .zmkss * (p l).cosmum) g
  let g := segAdd c (.geo .lu e) base (fun l => y .lmkcc * (p l).sinmum + y .lmkss * (p l).cosmum) g
  let g := segAdd c (.geo .rv e) base (fun l => y .rmksc_n * (p l).sinmu + y .rmkcs_n * (p l).cosmu) g
  let g := segAdd c (.geo .zv e) base (fun l => y .zmkcc_n * (p l).cosmu + y .zmkss_n * (p l).sinmu) g
  let g := segAdd c (.geo .lv e) base (fun l => -(y .lmkcc_n * (p l).cosmu + y .lmkss_n * (p l).sinmu)) g
  let g := segAdd c (.geo .r1 e) base (fun l => y .rmksc * (p l).sinmu + y .rmkcs * (p l).cosmu) g
  let g := segAdd c (.geo .z1 e) base (fun l => y .zmkcc * (p l).cosmu + y .zmkss * (p l).sinmu) g
  if c.r.nsMinF ≤ jF ∧ jF < c.r.nsMaxFIncludingLcfs then
    let i := idxKl c c.r.nsMinF jF k
    let g := segAdd c .rCon i (fun l => (y .rmksc * (p l).sinmu + y .rmkcs * (p l).cosmu) * conFactor c jF m) g
    segAdd c .zCon i (fun l => (y .zmkcc * (p l).cosmu + y .zmkss * (p l).sinmu) * conFactor c jF m) g
  else g

/-- `dft_toroidal.cc:345-487`; the arrays are filled with zeros before the loops -/
noncomputable def fourierToRealA (x : CoefA → Int → ℝ) : Arr → Int → ℝ :=
  forRange c.r.nsMinF1 c.r.nsMaxF1 (fun jF g =>
    forRange 0 c.s.mpol (fun m g =>
      if jF < jMin m then g
      else forRange 0 c.s.nZeta (fun k g => poloidalA c jF m k (torSumsA c x jF m k) g) g) g)
    (fun _ _ => 0)

/-! ## `symrzl`, `ideal_mhd_model.cc:1512-1602` -/

/-- `kRev = (nZeta - k) % nZeta`, `ideal_mhd_model.cc:1528` -/
def kRev (k : Int) : Int := (c.s.nZeta - k).tmod c.s.nZeta

/-- `a[jl] = a[jlRev] - a_asym[jlRev]` -/
def extEven (ga : Arr → Int → ℝ) (jl jlRev : Int) (a : Arr) (g : Arr → Int → ℝ) : Arr → Int → ℝ :=
  put g a jl (g a jlRev - ga a jlRev)

/-- `a[jl] = -a[jlRev] + a_asym[jlRev]` -/
def extOdd (ga : Arr → Int → ℝ) (jl jlRev : Int) (a : Arr) (g : Arr → Int → ℝ) : Arr → Int → ℝ :=
  put g a jl (-g a jlRev + ga a jlRev)

/-- one point of the extended interval, `ideal_mhd_model.cc:1530-1553` -/
def extendPoint (ga : Arr → Int → ℝ) (jl jlRev : Int) (g : Arr → Int → ℝ) : Arr → Int → ℝ :=
  let even := extEven ga jl jlRev
  let odd := extOdd ga jl jlRev
  let g := even (.geo .r1 true) g
  let g := even (.geo .r1 false) g
  let g := even (.geo .zu true) g
  let g := even (.geo .zu false) g
  let g := even (.geo .lu true) g
  let g := even (.geo .lu false) g
  let g := odd (.geo .ru true) g
  let g := odd (.geo .ru false) g
  let g := odd (.geo .z1 true) g
  let g := odd (.geo .z1 false) g
  if c.s.lthreed then
    let g := even (.geo .zv true) g
    let g := even (.geo .zv false) g
    let g := even (.geo .lv true) g
    let g := even (.geo .lv false) g
    let g := odd (.geo .rv true) g
    odd (.geo .rv false) g
  else g

/-- one point of the reduced interval, `ideal_mhd_model.cc:1560-1578` -/
noncomputable def combinePoint (ga : Arr → Int → ℝ) (jl : Int) (g : Arr → Int → ℝ) : Arr → Int → ℝ :=
  let add := fun (a : Arr) (g : Arr → Int → ℝ) => addTo g a jl (ga a jl)
  let g := add (.geo .r1 true) g
  let g := add (.geo .r1 false) g
  let g := add (.geo .ru true) g
  let g := add (.geo .ru false) g
  let g := add (.geo .z1 true) g
  let g := add (.geo .z1 false) g
  let g := add (.geo .zu true) g
  let g := add (.geo .zu false) g
  let g := add (.geo .lu true) g
  let g := add (.geo .lu false) g
  if c.s.lthreed then
    let g := add (.geo .rv true) g
    let g := add (.geo .rv false) g
    let g := add (.geo .zv true) g
    let g := add (.geo .zv false) g
    let g := add (.geo .lv true) g
    add (.geo .lv false) g
  else g

/-- one surface of the geometry, `ideal_mhd_model.cc:1523-1580` -/
noncomputable def symrzlSurface (ga : Arr → Int → ℝ) (jF : Int) (g : Arr → Int → ℝ) : Arr → Int → ℝ :=
  let base := (jF - c.r.nsMinF1) * c.s.nZnT
  let g := forRange 0 c.s.nZeta (fun k g =>
    forRange c.s.nThetaReduced c.s.nThetaEven (fun l g =>
      extendPoint c ga (base + k * c.s.nThetaEff + l) (base + kRev c k * c.s.nThetaEff + (c.s.nThetaEven - l)) g) g) g
  forRange 0 c.s.nZeta (fun k g =>
    forRange 0 c.s.nThetaReduced (fun l g => combinePoint c ga (base + k * c.s.nThetaEff + l) g) g) g

/-- one surface of the constraint arrays, `ideal_mhd_model.cc:1583-1600` -/
noncomputable def symrzlCon (ga : Arr → Int → ℝ) (jF : Int) (g : Arr → Int → ℝ) : Arr → Int → ℝ :=
  let base := (jF - c.r.nsMinF) * c.s.nZnT
  let g := forRange 0 c.s.nZeta (fun k g =>
    forRange c.s.nThetaReduced c.s.nThetaEven (fun l g =>
      let jl := base + k * c.s.nThetaEff + l
      let jlRev := base + kRev c k * c.s.nThetaEff + (c.s.nThetaEven - l)
      let g := extEven ga jl jlRev .rCon g
      extOdd ga jl jlRev .zCon g) g) g
  forRange 0 c.s.nZeta (fun k g =>
    forRange 0 c.s.nThetaReduced (fun l g =>
      let jl := base + k * c.s.nThetaEff + l
      let g := addTo g .rCon jl (ga .rCon jl)
      addTo g .zCon jl (ga .zCon jl)) g) g

/-- `symrzl`, `ideal_mhd_model.cc:1512-1602` -/
noncomputable def symrzl (ga g : Arr → Int → ℝ) : Arr → Int → ℝ :=
  let g := forRange c.r.nsMinF1 c.r.nsMaxF1 (fun jF g => symrzlSurface c ga jF g) g
  forRange c.r.nsMinF c.r.nsMaxFIncludingLcfs (fun jF g => symrzlCon c ga jF g) g

/-- `geometryFromFourier` up to `symrzl`, three-dimensional run without stellarator symmetry, `ideal_mhd_model.cc:1120-1135`;
    the symmetric transform is the one with direct sums (the one with the FFT agrees with it, C63) -/
noncomputable def geometryFromFourier (x : Coef → Int → ℝ) (xa : CoefA → Int → ℝ) : Arr → Int → ℝ :=
  symrzl c (fourierToRealA c xa) (fourierToRealDft c x)

/-! ## `symforce`, `ideal_mhd_model.cc:2721-2785` -/

/-- `fold`, first pass over a surface, `ideal_mhd_model.cc:2737-2746`: the new `fa` -/
noncomputable def foldAsym (std : Bool) (jF : Int) (f fa : Int → ℝ) : Int → ℝ :=
  let base := (jF - c.r.nsMinF) * c.s.nZnT
  forRange 0 c.s.nZeta (fun k fa =>
    forRange 0 c.s.nThetaReduced (fun l fa =>
      let jl := base + k * c.s.nThetaEff + l
      let jlRev := base + kRev c k * c.s.nThetaEff + (c.s.nThetaEven - l).tmod c.s.nThetaEven
      upd fa jl (if std then 0.5 * (f jl - f jlRev) else 0.5 * (f jl + f jlRev))) fa) fa

/-- second pass, `ideal_mhd_model.cc:2747-2752`: the new `f` -/
noncomputable def foldSym (jF : Int) (f fa : Int → ℝ) : Int → ℝ :=
  let base := (jF - c.r.nsMinF) * c.s.nZnT
  forRange 0 c.s.nZeta (fun k f =>
    forRange 0 c.s.nThetaReduced (fun l f =>
      let jl := base + k * c.s.nThetaEff + l
      upd f jl (f jl - fa jl)) f) f

/-- `fold`, `ideal_mhd_model.cc:2733-2754`: new `(f, fa)` -/
noncomputable def fold (jLo jHi : Int) (std : Bool) (f fa : Int → ℝ) : (Int → ℝ) × (Int → ℝ) :=
  forRange jLo jHi (fun jF (s : (Int → ℝ) × (Int → ℝ)) =>
    let fa := foldAsym c std jF s.1 s.2
    (foldSym c jF s.1 fa, fa)) (f, fa)

/-- the last argument of the calls of `fold`, `ideal_mhd_model.cc:2760-2784` -/
def stdParity : FArr → Bool
  | .armn => true
  | .brmn => false
  | .azmn => false
  | .bzmn => true
  | .frcon => true
  | .fzcon => false
  | .blmn => true
  | .crmn => false
  | .czmn => true
  | .clmn => true

/-- the last surface of the calls: `jRZ` or `jL`, `ideal_mhd_model.cc:2756-2784` -/
def foldEnd : FArr → Int
  | .blmn | .clmn => c.r.nsMaxFIncludingLcfs
  | _ => c.r.nsMaxF

/-- the arrays that exist in a three-dimensional run only -/
def only3d : FArr → Bool
  | .crmn | .czmn | .clmn => true
  | _ => false

/-- `symforce`, `ideal_mhd_model.cc:2721-2785`: new forces and `…_asym` forces. The calls of `fold` work on disjoint arrays. -/
noncomputable def symforce (d da : FArr → Bool → Int → ℝ) : (FArr → Bool → Int → ℝ) × (FArr → Bool → Int → ℝ) :=
  let r := fun a e =>
    if only3d a && !c.s.lthreed then (d a e, da a e)
    else fold c c.r.nsMinF (foldEnd c a) (stdParity a) (d a e) (da a e)
  (fun a e => (r a e).1, fun a e => (r a e).2)

/-! ## Forces: `ForcesToFourier3DAsymFastPoloidal`, `dft_toroidal.cc:494-658` -/

/-- one term of the scalar products, `dft_toroidal.cc:557-575` -/
noncomputable def polTermA (xmpq : ℝ) (f : FArr → ℝ) (p : PolEntry) : SlotA → ℝ :=
  let tempR := f .armn + xmpq * f .frcon
  let tempZ := f .azmn + xmpq * f .fzcon
  fun
  | .lmkcc => f .blmn * p.sinmumi
  | .lmkss => f .blmn * p.cosmumi
  | .lmkcc_n => -(f .clmn * p.cosmui)
  | .lmkss_n => -(f .clmn * p.sinmui)
  | .rmksc_n => -(f .crmn * p.sinmui)
  | .zmkcc_n => -(f .czmn * p.cosmui)
  | .rmkcs_n => -(f .crmn * p.cosmui)
  | .zmkss_n => -(f .czmn * p.sinmui)
  | .rmksc => tempR * p.sinmui + f .brmn * p.cosmumi
  | .rmkcs => tempR * p.cosmui + f .brmn * p.sinmumi
  | .zmkcc => tempZ * p.cosmui + f .bzmn * p.sinmumi
  | .zmkss => tempZ * p.sinmui + f .bzmn * p.cosmumi

/-- the scalar products over `l`, `dft_toroidal.cc:531-575`; the lambda-only section (617-637) has the first four of them -/
noncomputable def polSumsA (d : FArr → Bool → Int → ℝ) (jF m k : Int) : SlotA → ℝ :=
  forRange 0 c.s.nThetaReduced (fun l y => fun q =>
    y q + polTermA (c.xmpq m) (fun a => d a (isEven m) (idxKl c c.r.nsMinF jF k + l)) (polAt c m l) q) (fun _ => 0)

/-- `seg += …` on the `ntor + 1` coefficients of a mode -/
noncomputable def modeAdd (a : CoefA) (base : Int) (v : Int → ℝ) (f : CoefA → Int → ℝ) : CoefA → Int → ℝ :=
  forRange 0 (c.s.ntor + 1) (fun n f => addTo f a (base + n) (v n)) f

/-- `dft_toroidal.cc:577-598` -/
noncomputable def addRZA (jF m k : Int) (y : SlotA → ℝ) (f : CoefA → Int → ℝ) : CoefA → Int → ℝ :=
  let t := fun n => torAt c k n
  let i := idxMn c c.r.nsMinF jF m 0
  let f := modeAdd c .rsc i (fun n => y .rmksc * (t n).cosnv + y .rmksc_n * (t n).sinnvn) f
  let f := modeAdd c .rcs i (fun n => y .rmkcs * (t n).sinnv + y .rmkcs_n * (t n).cosnvn) f
  let f := modeAdd c .zcc i (fun n => y .zmkcc * (t n).cosnv + y .zmkcc_n * (t n).sinnvn) f
  modeAdd c .zss i (fun n => y .zmkss * (t n).sinnv + y .zmkss_n * (t n).cosnvn) f

/-- `dft_toroidal.cc:600-607` and `639-654` -/
noncomputable def addLA (jF m k : Int) (y : SlotA → ℝ) (f : CoefA → Int → ℝ) : CoefA → Int → ℝ :=
  let t := fun n => torAt c k n
  let i := idxMn c c.r.nsMinF jF m 0
  let f := modeAdd c .lcc i (fun n => y .lmkcc * (t n).cosnv + y .lmkcc_n * (t n).sinnvn) f
  modeAdd c .lss i (fun n => y .lmkss * (t n).sinnv + y .lmkss_n * (t n).cosnvn) f

/-- `dft_toroidal.cc:494-658`. The coefficients are not set to zero here: the symmetric transform, which runs before this
    one, clears all of them (`dft_toroidal.cc:23`). -/
noncomputable def forcesToFourierA (d : FArr → Bool → Int → ℝ) : CoefA → Int → ℝ :=
  let f := forRange c.r.nsMinF (jMaxRZ c) (fun jF f =>
    forRange 0 (mMax c jF) (fun m f =>
      forRange 0 c.s.nZeta (fun k f =>
        let y := polSumsA c d jF m k
        let f := addRZA c jF m k y f
        if 1 ≤ jF then addLA c jF m k y f else f) f) f) (fun _ _ => 0)
  forRange (jMaxRZ c) c.r.nsMaxFIncludingLcfs (fun jF f =>
    forRange 0 c.s.mpol (fun m f =>
      forRange 0 c.s.nZeta (fun k f => addLA c jF m k (polSumsA c d jF m k) f) f) f) f

/-- `forcesToFourier`, three-dimensional run without stellarator symmetry, `ideal_mhd_model.cc:2538-2559`; `da` is what an
    earlier call has left in the `…_asym` arrays -/
noncomputable def forcesToFourier (d da : FArr → Bool → Int → ℝ) : (Coef → Int → ℝ) × (CoefA → Int → ℝ) :=
  let h := symforce c d da
  (forcesToFourierDft c h.1, forcesToFourierA c h.2)

end Verif.Asym
