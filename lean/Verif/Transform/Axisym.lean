import Verif.Transform.Model

/-!
# Model of the axisymmetric transforms, `ideal_mhd_model.cc:1230-1397` and `2625-2712`

Same conventions as `Transform/Model.lean`. These transforms run when `ntor = 0`. The arrays `rv`, `zv`, `lv`, the
coefficients `rss`, `zcs`, `lcs` and the forces `crmn`, `czmn`, `clmn` do not exist then and are left alone here.
-/
namespace Verif.Transform
open Verif Verif.Fourier Partition

variable (c : Ctx)

/-- number of poloidal modes of a surface, `ideal_mhd_model.cc:1272-1276` -/
def numM (jF : Int) : Int := if jF = 0 then 2 else c.s.mpol

/-- `y[m % 2] += v m` for all modes of a surface, e.g. `ideal_mhd_model.cc:1282-1287` -/
def paritySum (n : Int) (v : Int → ℝ) : Bool → ℝ :=
  forRange 0 n (fun m y => fun e => if isEven m = e then y e + v m else y e) (fun _ => 0)

/-- `absl::c_fill_n(array, n, 0)`, `ideal_mhd_model.cc:1234-1243` -/
def fillZero (sel : Arr → Prop) [DecidablePred sel] (n : Int) (g : Arr → Int → ℝ) : Arr → Int → ℝ :=
  fun a i => if sel a ∧ 0 ≤ i ∧ i < n then 0 else g a i

/-- the ten arrays of the geometry -/
def isGeo2d : Arr → Bool
  | .geo .r1 _ | .geo .ru _ | .geo .z1 _ | .geo .zu _ | .geo .lu _ => true
  | _ => false

def isCon : Arr → Bool
  | .rCon | .zCon => true
  | _ => false

/-- one grid point, `ideal_mhd_model.cc:1255-1330` -/
noncomputable def point2d (x : Coef → Int → ℝ) (jF l : Int) (g : Arr → Int → ℝ) : Arr → Int → ℝ :=
  let src := fun a m => x a ((jF - c.r.nsMinF1) * c.s.mnsize + m)
  let rnkcc := paritySum (numM c jF) fun m => src .rcc m * (polAt c m l).cosmu
  let rnkcc_m := paritySum (numM c jF) fun m => src .rcc m * (polAt c m l).sinmum
  let znksc := paritySum (numM c jF) fun m => src .zsc m * (polAt c m l).sinmu
  let znksc_m := paritySum (numM c jF) fun m => src .zsc m * (polAt c m l).cosmum
  let lnksc_m := paritySum (numM c jF) fun m => src .lsc m * (polAt c m l).cosmum
  let i := (jF - c.r.nsMinF1) * c.s.nThetaEff + l
  let g := addTo g (.geo .r1 true) i (rnkcc true)
  let g := addTo g (.geo .ru true) i (rnkcc_m true)
  let g := addTo g (.geo .z1 true) i (znksc true)
  let g := addTo g (.geo .zu true) i (znksc_m true)
  let g := addTo g (.geo .lu true) i (lnksc_m true)
  let g := addTo g (.geo .r1 false) i (rnkcc false)
  let g := addTo g (.geo .ru false) i (rnkcc_m false)
  let g := addTo g (.geo .z1 false) i (znksc false)
  let g := addTo g (.geo .zu false) i (znksc_m false)
  addTo g (.geo .lu false) i (lnksc_m false)

/-- `scale`, `ideal_mhd_model.cc:1374-1376`: `m_parity` is 0 or 1 -/
noncomputable def conScale (jF m : Int) : ℝ :=
  let p : ℝ := (m.tmod 2 : Int)
  c.xmpq m * (1 - p + p * c.sqrtSF (jF - c.r.nsMinF1))

/-- one mode of the constraint arrays, `ideal_mhd_model.cc:1378-1392` -/
noncomputable def con2d (x : Coef → Int → ℝ) (jF m : Int) (g : Arr → Int → ℝ) : Arr → Int → ℝ :=
  let src := fun a m => x a ((jF - c.r.nsMinF1) * c.s.mnsize + m)
  let g := forRange 0 c.s.nThetaReduced (fun l g =>
    addTo g .rCon ((jF - c.r.nsMinF) * c.s.nThetaEff + l) (src .rcc m * (polAt c m l).cosmu * conScale c jF m)) g
  forRange 0 c.s.nThetaReduced (fun l g =>
    addTo g .zCon ((jF - c.r.nsMinF) * c.s.nThetaEff + l) (src .zsc m * (polAt c m l).sinmu * conScale c jF m)) g

/-- `dft_FourierToReal_2d_symm`, `ideal_mhd_model.cc:1230-1397`; `g` is what the arrays held before -/
noncomputable def fourierToReal2d (x : Coef → Int → ℝ) (g : Arr → Int → ℝ) : Arr → Int → ℝ :=
  let g := fillZero (fun a => isGeo2d a = true) ((c.r.nsMaxF1 - c.r.nsMinF1) * c.s.nThetaEff) g
  let g := fillZero (fun a => isCon a = true) ((c.r.nsMaxFIncludingLcfs - c.r.nsMinF) * c.s.nThetaEff) g
  let g := forRange c.r.nsMinF1 c.r.nsMaxF1 (fun jF g =>
    forRange 0 c.s.nThetaReduced (fun l g => point2d c x jF l g) g) g
  forRange c.r.nsMinF c.r.nsMaxFIncludingLcfs (fun jF g =>
    forRange 0 (numM c jF) (fun m g => con2d c x jF m g) g) g

/-- one point of the R and Z forces, `ideal_mhd_model.cc:2664-2687` -/
noncomputable def force2d (d : FArr → Bool → Int → ℝ) (jF m l : Int) (f : Coef → Int → ℝ) : Coef → Int → ℝ :=
  let v := fun a => d a (isEven m) ((jF - c.r.nsMinF) * c.s.nThetaEff + l)
  let p := polAt c m l
  let i := (jF - c.r.nsMinF) * c.s.mpol + m
  let rcc := v .armn + c.xmpq m * v .frcon
  let f := addTo f .rcc i (rcc * p.cosmui + v .brmn * p.sinmumi)
  let zsc := v .azmn + c.xmpq m * v .fzcon
  addTo f .zsc i (zsc * p.sinmui + v .bzmn * p.cosmumi)

/-- one point of the lambda force, `ideal_mhd_model.cc:2703-2708` -/
noncomputable def lambda2d (d : FArr → Bool → Int → ℝ) (jF m l : Int) (f : Coef → Int → ℝ) : Coef → Int → ℝ :=
  addTo f .lsc ((jF - c.r.nsMinF) * c.s.mpol + m)
    (d .blmn (isEven m) ((jF - c.r.nsMinF) * c.s.nThetaEff + l) * (polAt c m l).cosmumi)

/-- `dft_ForcesToFourier_2d_symm`, `ideal_mhd_model.cc:2625-2712`; `jMaxRZ` as in the three-dimensional transform
    (2635-2641), number of modes 2647-2651 -/
noncomputable def forcesToFourier2d (d : FArr → Bool → Int → ℝ) : Coef → Int → ℝ :=
  let f := forRange c.r.nsMinF (jMaxRZ c) (fun jF f =>
    forRange 0 (mMax c jF) (fun m f =>
      forRange 0 c.s.nThetaReduced (fun l f => force2d c d jF m l f) f) f) (fun _ _ => 0)
  forRange (max 1 c.r.nsMinF) c.r.nsMaxFIncludingLcfs (fun jF f =>
    forRange 0 c.s.mpol (fun m f =>
      forRange 0 c.s.nThetaReduced (fun l f => lambda2d c d jF m l f) f) f) f

end Verif.Transform
