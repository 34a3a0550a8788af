import Verif.Bounds.Model

/-!
# Accesses of the geometry and field part of the force model
-/
namespace Verif.Bounds
open Verif Arr

variable (E : Env)

/-- arrays written by the inverse transforms for even and odd `m` -/
def geoE : List Arr := [r1_e, ru_e, z1_e, zu_e, lu_e]
def geoO : List Arr := [r1_o, ru_o, z1_o, zu_o, lu_o]
def geoVE : List Arr := [rv_e, zv_e, lv_e]
def geoVO : List Arr := [rv_o, zv_o, lv_o]
def geoAE : List Arr := [r1_asym_e, ru_asym_e, z1_asym_e, zu_asym_e, lu_asym_e]
def geoAO : List Arr := [r1_asym_o, ru_asym_o, z1_asym_o, zu_asym_o, lu_asym_o]
def geoVAE : List Arr := [rv_asym_e, zv_asym_e, lv_asym_e]
def geoVAO : List Arr := [rv_asym_o, zv_asym_o, lv_asym_o]

/-- The loops of `dft_FourierToReal_2d_symm` (`ideal_mhd_model.cc:1229-1397`) and
    `dft_FourierToReal_2d_asymm` (`:1403-1500`): `src` are the coefficient arrays, `geo` the targets
    on the full grid, `con` the two constraint arrays. -/
def fourierToReal2d (src srcRZ geo con : List Arr) : List Acc :=
  let s := E.s
  let r := E.r
  fill geo ((r.nsMaxF1 - r.nsMinF1) * s.nThetaEff) ++
  fill con ((r.nsMaxFIncludingLcfs - r.nsMinF) * s.nThetaEff) ++
  (loop r.nsMinF1 r.nsMaxF1 fun jF => loop 0 s.nThetaReduced fun l =>
    let num_m := if jF = 0 then 2 else s.mpol
    (loop 0 num_m fun m =>
      on [cosmu, sinmu, cosmum, sinmum] (m * s.nThetaReduced + l) ++
      on src ((jF - r.nsMinF1) * s.mnsize + m)) ++
    on geo ((jF - r.nsMinF1) * s.nThetaEff + l)) ++
  (loop r.nsMinF r.nsMaxFIncludingLcfs fun jF =>
    let num_m := if jF = 0 then 2 else s.mpol
    loop 0 num_m fun m =>
      on [xmpq] m ++ on [sqrtSF] (jF - r.nsMinF1) ++
      loop 0 s.nThetaReduced fun l =>
        on [cosmu, sinmu] (m * s.nThetaReduced + l) ++
        on srcRZ ((jF - r.nsMinF1) * s.mnsize + m) ++
        on con ((jF - r.nsMinF) * s.nThetaEff + l))

/-- `dft_FourierToReal_2d_symm`, `ideal_mhd_model.cc:1229-1397` -/
def dftFourierToReal2dSymm : List Acc :=
  fourierToReal2d E [rmncc, zmnsc, lmnsc] [rmncc, zmnsc] (geoE ++ geoO) [rCon, zCon]

/-- `dft_FourierToReal_2d_asymm`, `ideal_mhd_model.cc:1403-1500` -/
def dftFourierToReal2dAsymm : List Acc :=
  fourierToReal2d E [rmnsc, zmncc, lmncc] [rmnsc, zmncc] (geoAE ++ geoAO) [rCon_asym, zCon_asym]

/-- `FourierToReal3DSymmFastPoloidal` (`dft_toroidal.cc:180-349`) and
    `FourierToReal3DAsymFastPoloidal` (`:359-484`); the fills over whole arrays are in range by
    construction and left out. `segment`s are written as loops over their entries. -/
def fourierToReal3d (src geE geO con : List Arr) : List Acc :=
  let s := E.s
  let r := E.r
  loop r.nsMinF1 r.nsMaxF1 fun jF => loop 0 s.mpol fun m =>
    on [xmpq] m ++ on (par m [] [sqrtSF]) (jF - r.nsMinF1) ++
    let jMin : Int := if m = 0 ∨ m = 1 then 0 else 1
    whenB (¬ jF < jMin)
      (loop 0 s.nZeta fun k =>
        (loop 0 (s.ntor + 1) fun n =>
          on [cosnv, sinnv, cosnvn, sinnvn] (k * (s.nnyq2 + 1) + n) ++
          on src (((jF - r.nsMinF1) * s.mpol + m) * (s.ntor + 1) + n)) ++
        (loop 0 s.nThetaReduced fun l =>
          on [cosmu, sinmu, cosmum, sinmum] (m * s.nThetaReduced + l) ++
          on (par m geE geO) (((jF - r.nsMinF1) * s.nZeta + k) * s.nThetaEff + l)) ++
        whenB (r.nsMinF ≤ jF ∧ jF < r.nsMaxFIncludingLcfs)
          (loop 0 s.nThetaReduced fun l =>
            on [cosmu, sinmu] (m * s.nThetaReduced + l) ++
            on con (((jF - r.nsMinF) * s.nZeta + k) * s.nThetaEff + l)))

/-- `dft_FourierToReal_3d_symm`, `ideal_mhd_model.cc:1163-1198` (only called for `lthreed`) -/
def dftFourierToReal3dSymm : List Acc :=
  fourierToReal3d E [rmncc, rmnss, zmnsc, zmncs, lmnsc, lmncs] (geoE ++ geoVE) (geoO ++ geoVO)
    [rCon, zCon]

/-- `dft_FourierToReal_3d_asymm`, `ideal_mhd_model.cc:1200-1222` (only for `lthreed`, `lasym`) -/
def dftFourierToReal3dAsymm : List Acc :=
  fourierToReal3d E [rmnsc, rmncs, zmncc, zmnss, lmncc, lmnss] (geoAE ++ geoVAE) (geoAO ++ geoVAO)
    [rCon_asym, zCon_asym]

/-- One of the two radial loops of `symrzl`, `ideal_mhd_model.cc:1519-1584` (geometry, from
    `nsMinF1`) and `:1586-1607` (constraint, from `nsMinF`). -/
def symrzlLoop (jLo jHi jBase : Int) (f fa : List Arr) : List Acc :=
  let s := E.s
  loop jLo jHi fun jF =>
    let base := (jF - jBase) * s.nZnT
    (loop 0 s.nZeta fun k =>
      let kRev := (s.nZeta - k).tmod s.nZeta
      loop s.nThetaReduced s.nThetaEven fun l =>
        let jl := base + k * s.nThetaEff + l
        let jlRev := base + kRev * s.nThetaEff + (s.nThetaEven - l)
        on f jl ++ on f jlRev ++ on fa jlRev) ++
    (loop 0 s.nZeta fun k => loop 0 s.nThetaReduced fun l =>
      let jl := base + k * s.nThetaEff + l
      on f jl ++ on fa jl)

/-- `symrzl`, `ideal_mhd_model.cc:1508-1608` -/
def symrzl : List Acc :=
  symrzlLoop E E.r.nsMinF1 E.r.nsMaxF1 E.r.nsMinF1 (geoE ++ geoO) (geoAE ++ geoAO) ++
  whenB E.s.lthreed
    (symrzlLoop E E.r.nsMinF1 E.r.nsMaxF1 E.r.nsMinF1 (geoVE ++ geoVO) (geoVAE ++ geoVAO)) ++
  symrzlLoop E E.r.nsMinF E.r.nsMaxFIncludingLcfs E.r.nsMinF [rCon, zCon] [rCon_asym, zCon_asym]

/-- `geometryFromFourier`, `ideal_mhd_model.cc:1120-1160` -/
def geometryFromFourier : List Acc :=
  let s := E.s
  let r := E.r
  (if s.lthreed then dftFourierToReal3dSymm E else dftFourierToReal2dSymm E) ++
  whenB s.lasym
    ((if s.lthreed then dftFourierToReal3dAsymm E else dftFourierToReal2dAsymm E) ++ symrzl E) ++
  (loop r.nsMinF r.nsMaxFIncludingLcfs fun jF => loop 0 s.nZnT fun kl =>
    on [ruFull, zuFull] ((jF - r.nsMinF) * s.nZnT + kl) ++
    on [ru_e, ru_o, zu_e, zu_o] ((jF - r.nsMinF1) * s.nZnT + kl) ++
    on [sqrtSF] (jF - r.nsMinF1)) ++
  whenB (r.nsMaxF1 = E.ns)
    (on [r1_e, r1_o] ((E.ns - 1 - r.nsMinF1) * s.nZnT + 0) ++
     on [r1_e, r1_o] ((E.ns - 1 - r.nsMinF1) * s.nZnT + (s.nThetaReduced - 1))) ++
  whenB (r.nsMinF1 = 0) (on [r1_e, z1_e] 0)

/-- `rzConIntoVolume`, `ideal_mhd_model.cc:1616-1645` -/
def rzConIntoVolume : List Acc :=
  let s := E.s
  let r := E.r
  whenB (r.nsMaxF1 = E.ns)
    (loop 0 s.nZnT fun kl =>
      on [rCon_LCFS, zCon_LCFS] kl ++ on [rCon, zCon] ((E.ns - 1 - r.nsMinF) * s.nZnT + kl)) ++
  (loop (max 1 r.nsMinF) r.nsMaxFIncludingLcfs fun jF =>
    on [sqrtSF] (jF - r.nsMinF1) ++
    loop 0 s.nZnT fun kl =>
      on [rCon0, zCon0] ((jF - r.nsMinF) * s.nZnT + kl) ++ on [rCon_LCFS, zCon_LCFS] kl)

/-- `ComputeHalfGridJacobian` (`jacobian_kernel.h:24-65`) and the scan of `tau` in
    `computeJacobian` (`ideal_mhd_model.cc:1647-1663`) -/
def computeJacobian : List Acc :=
  let s := E.s
  let r := E.r
  (loop r.nsMinH r.nsMaxH fun jH =>
    on [sqrtSH] (jH - r.nsMinH) ++
    loop 0 s.nZnT fun kl =>
      on [r1_e, r1_o, z1_e, z1_o, ru_e, ru_o, zu_e, zu_o] ((jH - r.nsMinF1) * s.nZnT + kl) ++
      on [r1_e, r1_o, z1_e, z1_o, ru_e, ru_o, zu_e, zu_o] ((jH + 1 - r.nsMinF1) * s.nZnT + kl) ++
      on [r12, ru12, zu12, rs, zs, tau] ((jH - r.nsMinH) * s.nZnT + kl)) ++
  loop 0 ((r.nsMaxH - r.nsMinH) * s.nZnT) fun i => on [tau] i

/-- `ComputeMetricElements`, `metric_kernel.h:18-88` -/
def computeMetricElements : List Acc :=
  let s := E.s
  let r := E.r
  loop r.nsMinH r.nsMaxH fun jH =>
    on [sqrtSF] (jH - r.nsMinF1) ++ on [sqrtSF] (jH + 1 - r.nsMinF1) ++
    on [sqrtSH] (jH - r.nsMinH) ++
    loop 0 s.nZnT fun kl =>
      let i_in := (jH - r.nsMinF1) * s.nZnT + kl
      let i_out := (jH + 1 - r.nsMinF1) * s.nZnT + kl
      let ih := (jH - r.nsMinH) * s.nZnT + kl
      on [r1_e, r1_o, ru_e, ru_o, zu_e, zu_o] i_in ++
      on [r1_e, r1_o, ru_e, ru_o, zu_e, zu_o] i_out ++
      on [gsqrt, tau, r12, guu, gvv] ih ++
      whenB s.lthreed
        (on [rv_e, rv_o, zv_e, zv_o] i_in ++ on [rv_e, rv_o, zv_e, zv_o] i_out ++ on [guv, gvv] ih)

/-- `updateDifferentialVolume`, `ideal_mhd_model.cc:1697-1711` -/
def updateDifferentialVolume : List Acc :=
  let s := E.s
  let r := E.r
  loop r.nsMinH r.nsMaxH fun jH =>
    on [dVdsH] (jH - r.nsMinH) ++
    loop 0 s.nZnT fun kl =>
      on [gsqrt] ((jH - r.nsMinH) * s.nZnT + kl) ++ on [wInt] (kl.tmod s.nThetaEff)

/-- `computeInitialVolume`, `ideal_mhd_model.cc:1714-1725`, and `updateVolume`, `:1744-1755` -/
def volumeSum : List Acc :=
  let r := E.r
  loop r.nsMinH r.nsMaxH fun jH =>
    whenB (jH < r.nsMaxH - 1 ∨ jH = E.ns - 2) (on [dVdsH] (jH - r.nsMinH))

/-- `computeBContra`, `ideal_mhd_model.cc:1778-1893`, with `ComputeBsupContra`,
    `bcontra_kernel.h`. -/
def computeBContra : List Acc :=
  let s := E.s
  let r := E.r
  let j0 := r.nsMinH
  (loop 0 s.nZnT fun kl =>
    on [lu_e, lu_o] ((j0 - r.nsMinF1) * s.nZnT + kl) ++
    whenB s.lthreed (on [lv_e, lv_o] ((j0 - r.nsMinF1) * s.nZnT + kl)) ++
    on [phipF] (j0 - r.nsMinF1)) ++
  (loop r.nsMinH r.nsMaxH fun jH => loop 0 s.nZnT fun kl =>
    on [lu_e, lu_o] ((jH + 1 - r.nsMinF1) * s.nZnT + kl) ++
    whenB s.lthreed (on [lv_e, lv_o] ((jH + 1 - r.nsMinF1) * s.nZnT + kl)) ++
    on [phipF] (jH + 1 - r.nsMinH)) ++
  (loop r.nsMinH r.nsMaxH fun jH =>
    on [sqrtSH] (jH - r.nsMinH) ++
    loop 0 s.nZnT fun kl =>
      let i_in := (jH - r.nsMinF1) * s.nZnT + kl
      let i_out := (jH + 1 - r.nsMinF1) * s.nZnT + kl
      let ih := (jH - r.nsMinH) * s.nZnT + kl
      whenB s.lthreed (on [lv_e, lv_o] i_in ++ on [lv_e, lv_o] i_out) ++
      on [lu_e, lu_o] i_in ++ on [lu_e, lu_o] i_out ++ on [bsupu, bsupv, gsqrt] ih) ++
  -- `ncurr == 1` and the other branch
  (loop r.nsMinH r.nsMaxH fun jH =>
    (loop 0 s.nZnT fun kl =>
      let iHalf := (jH - r.nsMinH) * s.nZnT + kl
      whenB s.lthreed (on [guv] iHalf) ++ on [guu, bsupu, bsupv, gsqrt] iHalf ++
      on [wInt] (kl.tmod s.nThetaEff)) ++
    on [chipH, currH, phipH, iotaH] (jH - r.nsMinH)) ++
  (loop r.nsMinFi r.nsMaxFi fun jFi =>
    on [chipF] (jFi - r.nsMinF1) ++ on [chipH] (jFi - r.nsMinH) ++ on [chipH] (jFi - 1 - r.nsMinH)) ++
  whenB (r.nsMaxF1 = E.ns)
    (on [chipF] (r.nsMaxF1 - 1 - r.nsMinF1) ++ on [chipH] (r.nsMaxH - 1 - r.nsMinH) ++
     on [chipH] (r.nsMaxH - 2 - r.nsMinH)) ++
  whenB (r.nsMinF1 = 0) (on [iotaF] 0 ++ on [iotaH] 0 ++ on [iotaH] 1) ++
  (loop r.nsMinFi r.nsMaxFi fun jFi =>
    on [iotaF] (jFi - r.nsMinF1) ++ on [iotaH] (jFi - r.nsMinH) ++ on [iotaH] (jFi - 1 - r.nsMinH)) ++
  whenB (r.nsMaxF1 = E.ns)
    (on [iotaF] (r.nsMaxF1 - 1 - r.nsMinF1) ++ on [iotaH] (r.nsMaxH - 1 - r.nsMinH) ++
     on [iotaH] (r.nsMaxH - 2 - r.nsMinH)) ++
  (loop r.nsMinH r.nsMaxH fun jH => loop 0 s.nZnT fun kl =>
    on [bsupu, gsqrt] ((jH - r.nsMinH) * s.nZnT + kl) ++ on [chipH] (jH - r.nsMinH))

/-- `computeBCo` (`ideal_mhd_model.cc:1896-1902`) with `ComputeBCo` (`bco_kernel.h`); the loop runs
    over `bsupu.size()`. -/
def computeBCo : List Acc :=
  loop 0 E.nHalf fun i =>
    whenB E.s.lthreed (on [guv] i) ++ on [guu, gvv, bsupu, bsupv, bsubu, bsubv] i

/-- `pressureAndEnergies`, `ideal_mhd_model.cc:1904-1962`, with `ComputeMagneticPressure`,
    `pressure_kernel.h` -/
def pressureAndEnergies : List Acc :=
  let s := E.s
  let r := E.r
  (loop r.nsMinH r.nsMaxH fun jH => on [presH, massH, dVdsH] (jH - r.nsMinH)) ++
  (loop 0 E.nHalf fun i => on [bsupu, bsubu, bsupv, bsubv, totalPressure] i) ++
  (loop r.nsMinH r.nsMaxH fun jH =>
    let offset := (jH - r.nsMinH) * s.nZnT
    whenB (jH < r.nsMaxH - 1 ∨ jH = E.ns - 2)
      (loop 0 s.nZnT fun kl =>
        on [gsqrt, totalPressure] (offset + kl) ++ on [wInt] (kl.tmod s.nThetaEff)) ++
    seg [totalPressure] offset s.nZnT ++ on [presH] (jH - r.nsMinH))

/-- `radialForceBalance`, `ideal_mhd_model.cc:1995-2041` -/
def radialForceBalance : List Acc :=
  let s := E.s
  let r := E.r
  (loop r.nsMinH r.nsMaxH fun jH =>
    on [bucoH, bvcoH] (jH - r.nsMinH) ++
    loop 0 s.nZnT fun kl =>
      on [bsubu, bsubv] ((jH - r.nsMinH) * s.nZnT + kl) ++ on [wInt] (kl.tmod s.nThetaEff)) ++
  (loop r.nsMinFi r.nsMaxFi fun jFi =>
    on [jcurvF, jcuruF, presgradF, dVdsF, equiF] (jFi - r.nsMinFi) ++
    on [bucoH, bvcoH, presH, dVdsH] (jFi - r.nsMinH) ++
    on [bucoH, bvcoH, presH, dVdsH] (jFi - 1 - r.nsMinH) ++
    on [chipF, phipF] (jFi - r.nsMinF1))

/-- The vacuum pressure on the boundary, `ideal_mhd_model.cc:785-794` and `:911-949` (free boundary
    with the vacuum contribution switched on) -/
def vacuumPressure : List Acc :=
  let s := E.s
  let r := E.r
  (loop r.nsMinF r.nsMaxF fun jF => loop 0 s.nZnT fun kl =>
    on [rCon0, zCon0] ((jF - r.nsMinF) * s.nZnT + kl)) ++
  whenB (r.nsMaxF1 = E.ns)
    (on [presH] (r.nsMaxH - 1 - r.nsMinH) ++
     loop 0 s.nZnT fun kl =>
      on [insideTotalPressure, rBSq, delBSq] kl ++
      on [totalPressure] ((r.nsMaxH - 1 - r.nsMinH) * s.nZnT + kl) ++
      on [totalPressure] ((r.nsMaxH - 2 - r.nsMinH) * s.nZnT + kl) ++
      on [vacuum_magnetic_pressure] (kl.tmod s.nThetaEff * s.nZeta + kl.tdiv s.nThetaEff) ++
      on [r1_e, r1_o] ((r.nsMaxF1 - 1 - r.nsMinF1) * s.nZnT + kl))

end Verif.Bounds
