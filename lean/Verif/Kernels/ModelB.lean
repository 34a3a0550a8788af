import Verif.Kernels.Model
import Mathlib.Data.Fin.VecNotation

/-!
# Model of the radial preconditioner, the constraint force and the radial force balance

The functions of `ideal_mhd_model.cc` that follow the kernels of `Model.lean`; same conventions.
-/
namespace Verif.Kernels
open Verif Verif.Partition

variable (c : Ctx) (r : Ranges)

/-! ## radial preconditioner -/

/-- the entries `ax[jH * 4 + ..]`, `bx[jH * 3 + ..]`, `cx[jH]` of one half-grid surface, `ideal_mhd_model.cc:394-396` -/
abbrev PreSums := (Fin 4 → ℝ) × (Fin 3 → ℝ) × ℝ

/-- the arrays a call works on: `zs, zu12, zu_e, zu_o, z1_o` or `rs, ru12, ru_e, ru_o, r1_o`,
    `ideal_mhd_model.cc:2171-2181` -/
structure Arrays where
  xs : Half → ℝ
  xu12 : Half → ℝ
  xu_e : Geo → ℝ
  xu_o : Geo → ℝ
  x1_o : Geo → ℝ

def zArrays : Arrays := ⟨Half.zs, Half.zu12, Geo.zu_e, Geo.zu_o, Geo.z1_o⟩
def rArrays : Arrays := ⟨Half.rs, Half.ru12, Geo.ru_e, Geo.ru_o, Geo.r1_o⟩

/-- what one point adds, `ideal_mhd_model.cc:2320-2374`; `g0`, `g1` are the full-grid points `iFull_0`, `iFull_1` -/
noncomputable def precondPoint (x : Arrays) (deltaS sqrtSH w : ℝ) (h : Half) (g0 g1 : Geo) : PreSums :=
  let pFactor := -4
  let pTau := pFactor * h.r12 * h.totalPressure / h.tau * w
  let t1a := x.xu12 h / deltaS
  let t2a := 0.25 * (x.xu_e g1 / sqrtSH + x.xu_o g1) / sqrtSH
  let t3a := 0.25 * (x.xu_e g0 / sqrtSH + x.xu_o g0) / sqrtSH
  let t1b := 0.5 * (x.xs h + 0.5 / sqrtSH * x.x1_o g1)
  let t2b := 0.5 * (x.xs h + 0.5 / sqrtSH * x.x1_o g0)
  (![pTau * t1a * t1a, pTau * (t1a + t2a) * (-t1a + t3a), pTau * (t1a + t2a) * (t1a + t2a),
      pTau * (-t1a + t3a) * (-t1a + t3a)],
    ![pTau * t1b * t2b, pTau * t1b * t1b, pTau * t2b * t2b],
    0.25 * pFactor * h.bsupv * h.bsupv * h.gsqrt * w)

/-- `ideal_mhd_model.cc:2306-2376` -/
noncomputable def precondSums (x : Arrays) (half : Vec Half) (geo : Vec Geo) (sqrtSH : Vec ℝ) (sums : Vec PreSums) :
    Outcome (Vec PreSums) := do
  let sums ← forRangeM 0 (r.nsMaxH - r.nsMinH) (fun i s => s.set i 0) sums
  forRangeM r.nsMinH r.nsMaxH (fun jH sums =>
    forRangeM 0 c.nZnT (fun kl sums => do
      let h ← half.get ((jH - r.nsMinH) * c.nZnT + kl)
      let g0 ← geo.get ((jH - r.nsMinF1) * c.nZnT + kl)
      let g1 ← geo.get ((jH + 1 - r.nsMinF1) * c.nZnT + kl)
      let w ← weight c kl
      let q ← sqrtSH.get (jH - r.nsMinH)
      let s ← sums.get (jH - r.nsMinH)
      sums.set (jH - r.nsMinH) (s + precondPoint x c.deltaS q w h g0 g1)) sums) sums

/-- off-diagonal elements of a half-grid surface, even and odd: `axm`, `bxm` -/
@[ext] structure OffDiag where
  axm_e : ℝ
  axm_o : ℝ
  bxm_e : ℝ
  bxm_o : ℝ

/-- diagonal elements of a full-grid surface: `axd`, `bxd`, `cxd` -/
@[ext] structure Diag where
  axd_e : ℝ
  axd_o : ℝ
  bxd_e : ℝ
  bxd_o : ℝ
  cxd : ℝ

/-- `ideal_mhd_model.cc:2383-2393` -/
noncomputable def precondHalf (sums : Vec PreSums) (sm sp : Vec ℝ) (out : Vec OffDiag) : Outcome (Vec OffDiag) :=
  forRangeM r.nsMinH r.nsMaxH (fun jH out => do
    let s ← sums.get (jH - r.nsMinH)
    let m ← sm.get (jH - r.nsMinH)
    let p ← sp.get (jH - r.nsMinH)
    out.set (jH - r.nsMinH) ⟨-s.1 0, s.1 1 * m * p, s.2.1 0, s.2.1 0 * m * p⟩) out

/-- contribution of the inner half-grid point, `jF > 0 ? ... : 0.0` in `ideal_mhd_model.cc:2400-2419` -/
noncomputable def innerDiag (sums : Vec PreSums) (sm : Vec ℝ) (jF : Int) : Outcome Diag :=
  if 0 < jF then do
    let s ← sums.get (jF - 1 - r.nsMinH)
    let m ← sm.get (jF - 1 - r.nsMinH)
    .ok ⟨s.1 0, s.1 2 * m * m, s.2.1 1, s.2.1 1 * m * m, s.2.2⟩
  else .ok ⟨0, 0, 0, 0, 0⟩

/-- contribution of the outer half-grid point, `jF < ns - 1 ? ... : 0.0` -/
noncomputable def outerDiag (sums : Vec PreSums) (sp : Vec ℝ) (jF : Int) : Outcome Diag :=
  if jF < c.ns - 1 then do
    let s ← sums.get (jF - r.nsMinH)
    let p ← sp.get (jF - r.nsMinH)
    .ok ⟨s.1 0, s.1 3 * p * p, s.2.1 2, s.2.1 2 * p * p, s.2.2⟩
  else .ok ⟨0, 0, 0, 0, 0⟩

/-- `ideal_mhd_model.cc:2395-2420` -/
noncomputable def precondFull (sums : Vec PreSums) (sm sp : Vec ℝ) (out : Vec Diag) : Outcome (Vec Diag) :=
  forRangeM r.nsMinF r.nsMaxF (fun jF out => do
    let i ← innerDiag r sums sm jF
    let o ← outerDiag c r sums sp jF
    out.set (jF - r.nsMinF) ⟨i.axd_e + o.axd_e, i.axd_o + o.axd_o, i.bxd_e + o.bxd_e, i.bxd_o + o.bxd_o, i.cxd + o.cxd⟩) out

/-- `computePreconditioningMatrix`, `ideal_mhd_model.cc:2296-2421` -/
noncomputable def computePreconditioningMatrix (x : Arrays) (half : Vec Half) (geo : Vec Geo) (sqrtSH sm sp : Vec ℝ)
    (sums : Vec PreSums) (m : Vec OffDiag) (d : Vec Diag) : Outcome (Vec PreSums × Vec OffDiag × Vec Diag) := do
  let sums ← precondSums c r x half geo sqrtSH sums
  let m ← precondHalf r sums sm sp m
  let d ← precondFull c r sums sm sp d
  .ok (sums, m, d)

/-! ## constraint force -/

/-- `ruFull`, `zuFull` of a point, `ideal_mhd_model.cc:1138-1149` -/
noncomputable def fullDerivs (geo : Vec Geo) (sqrtSF : Vec ℝ) (out : Vec (ℝ × ℝ)) : Outcome (Vec (ℝ × ℝ)) :=
  forRangeM r.nsMinF r.nsMaxFIncludingLcfs (fun jF out =>
    forRangeM 0 c.nZnT (fun kl out => do
      let g ← geo.get ((jF - r.nsMinF1) * c.nZnT + kl)
      let q ← sqrtSF.get (jF - r.nsMinF1)
      out.set ((jF - r.nsMinF) * c.nZnT + kl) (g.ru_e + q * g.ru_o, g.zu_e + q * g.zu_o)) out) out

/-- `arNorm`, `azNorm`, `ideal_mhd_model.cc:2446-2454` -/
noncomputable def conNorms (full : Vec (ℝ × ℝ)) (jF : Int) : Outcome (ℝ × ℝ) :=
  forRangeM 0 c.nZnT (fun kl (s : ℝ × ℝ) => do
    let f ← full.get ((jF - r.nsMinF) * c.nZnT + kl)
    let w ← weight c kl
    .ok (s.1 + f.1 * f.1 * w, s.2 + f.2 * f.2 * w)) (0, 0)

/-- the value of a surface, `ideal_mhd_model.cc:2432-2438` and `2468-2476` -/
noncomputable def tconValue (ns : Int) (tcon0 deltaS ard azd arNorm azNorm : ℝ) : ℝ :=
  let tcon_multiplier := tcon0 * (1 + ns * (1 / 60 + ns / (200 * 120))) / (4 * 4)
  let tcon_base := min |ard / arNorm| |azd / azNorm|
  tcon_base * tcon_multiplier * 32 * deltaS * 32 * deltaS

/-- one surface, `ideal_mhd_model.cc:2446-2477` -/
noncomputable def tconSurface (tcon0 : ℝ) (full : Vec (ℝ × ℝ)) (ar az : Vec Diag) (jF : Int) (tcon : Vec ℝ) :
    Outcome (Vec ℝ) := do
  let n ← conNorms c r full jF
  if n.1 = 0 then .status "arNorm should never be 0.0."
  else if n.2 = 0 then .status "azNorm should never be 0.0."
  else do
    let a ← ar.get (jF - r.nsMinF)
    let z ← az.get (jF - r.nsMinF)
    tcon.set (jF - r.nsMinF) (tconValue c.ns tcon0 c.deltaS a.axd_e z.axd_e n.1 n.2)

/-- `constraintForceMultiplier`, `ideal_mhd_model.cc:2427-2488` -/
noncomputable def constraintForceMultiplier (tcon0 : ℝ) (full : Vec (ℝ × ℝ)) (ar az : Vec Diag) (tcon : Vec ℝ) :
    Outcome (Vec ℝ) := do
  let tcon ← forRangeM (max (if r.nsMinF = 0 then 1 else 0) r.nsMinF) r.nsMaxF (tconSurface c r tcon0 full ar az) tcon
  if r.nsMaxF1 = c.ns then do
    let x ← tcon.get (r.nsMaxF1 - 2 - r.nsMinF)
    tcon.set (r.nsMaxF1 - 1 - r.nsMinF) (0.5 * x)
  else .ok tcon

/-! ## radial force balance -/

/-- profiles of an interior surface: `jcurvF`, `jcuruF`, `presgradF`, `dVdsF`, `equiF` -/
@[ext] structure Balance where
  jcurv : ℝ
  jcuru : ℝ
  presgrad : ℝ
  dVds : ℝ
  equi : ℝ

/-- `bucoH`, `bvcoH`, `ideal_mhd_model.cc:1998-2007` -/
noncomputable def covariantAverages (half : Vec Half) (b : Vec (ℝ × ℝ)) : Outcome (Vec (ℝ × ℝ)) :=
  forRangeM r.nsMinH r.nsMaxH (fun jH b => do
    let b ← b.set (jH - r.nsMinH) (0, 0)
    forRangeM 0 c.nZnT (fun kl b => do
      let h ← half.get ((jH - r.nsMinH) * c.nZnT + kl)
      let w ← weight c kl
      let s ← b.get (jH - r.nsMinH)
      b.set (jH - r.nsMinH) (s.1 + h.bsubu * w, s.2 + h.bsubv * w)) b) b

/-- `ideal_mhd_model.cc:2009-2038` at one surface -/
noncomputable def balancePoint (signOfJacobian deltaS : ℝ) (bo bi : ℝ × ℝ) (po pi vo vi chip phip : ℝ) : Balance :=
  let signByDeltaS := signOfJacobian / deltaS
  let jcurv := signByDeltaS * (bo.1 - bi.1)
  let jcuru := -signByDeltaS * (bo.2 - bi.2)
  let presgrad := (po - pi) / deltaS
  let dVds := 0.5 * (vo + vi)
  ⟨jcurv, jcuru, presgrad, dVds, (chip * jcurv - phip * jcuru) / dVds + presgrad⟩

/-- `radialForceBalance`, `ideal_mhd_model.cc:1995-2039` -/
noncomputable def radialForceBalance (half : Vec Half) (presH dVdsH chipF phipF : Vec ℝ) (b : Vec (ℝ × ℝ))
    (out : Vec Balance) : Outcome (Vec (ℝ × ℝ) × Vec Balance) := do
  let b ← covariantAverages c r half b
  let out ← forRangeM r.nsMinFi r.nsMaxFi (fun jFi out => do
    let bo ← b.get (jFi - r.nsMinH)
    let bi ← b.get (jFi - 1 - r.nsMinH)
    let po ← presH.get (jFi - r.nsMinH)
    let pi ← presH.get (jFi - 1 - r.nsMinH)
    let vo ← dVdsH.get (jFi - r.nsMinH)
    let vi ← dVdsH.get (jFi - 1 - r.nsMinH)
    let chip ← chipF.get (jFi - r.nsMinF1)
    let phip ← phipF.get (jFi - r.nsMinF1)
    out.set (jFi - r.nsMinFi) (balancePoint c.signOfJacobian c.deltaS bo bi po pi vo vi chip phip)) out
  .ok (b, out)

/-! ## norms of the forces -/

/-- the sums of one thread, `ideal_mhd_model.cc:2069-2090` -/
noncomputable def forceNormSums (half : Vec Half) : Outcome (ℝ × ℝ) :=
  forRangeM r.nsMinH r.nsMaxH (fun jH s =>
    forRangeM 0 c.nZnT (fun kl (s : ℝ × ℝ) =>
      if jH < r.nsMaxH - 1 ∨ jH = c.ns - 2 then do
        let h ← half.get ((jH - r.nsMinH) * c.nZnT + kl)
        let w ← weight c kl
        .ok (s.1 + h.guu * h.r12 * h.r12 * w, s.2 + (h.bsubu * h.bsubu + h.bsubv * h.bsubv) * w)
      else .ok s) s) (0, 0)

end Verif.Kernels
