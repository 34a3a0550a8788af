import Verif.Partition.Model
import Verif.Sizes.Model
import Verif.Common.Loop

/-!
# The arrays of the force model and the accesses to them

An access is an array with the indices used; a piece of code is the list of its accesses. Only the
control flow that depends on sizes and flags is kept (loop bounds and the `if`s on surface numbers,
`lthreed`, `lasym`, free boundary); where a branch depends on floating-point values the accesses of
both branches are listed. Values are not modelled here.
-/
namespace Verif.Bounds
open Verif

/-- What the code of one thread depends on: its radial ranges, the sizes, the number of surfaces
    (`m_fc_.ns`), the free-boundary flag (`m_fc_.lfreeb`) and whether the vacuum pressure state is
    `kInitialized` or `kActive`. -/
structure Env where
  r : Partition.Ranges
  s : Sizes.Sizes
  ns : Int
  lfreeb : Bool
  vacOn : Bool

/-- The arrays: members of `IdealMhdModel` (`ideal_mhd_model.h`), of `RadialProfiles`,
    `ThreadLocalStorage`, `HandoverStorage`, `FourierGeometry`, `FourierForces`,
    `FourierBasisFastPoloidal` and `Sizes`, and the local arrays of `deAliasConstraintForce`. -/
inductive Arr where
  -- geometry on the full grid with halo
  | r1_e | r1_o | ru_e | ru_o | z1_e | z1_o | zu_e | zu_o | lu_e | lu_o
  | rv_e | rv_o | zv_e | zv_o | lv_e | lv_o
  | r1_asym_e | r1_asym_o | ru_asym_e | ru_asym_o | z1_asym_e | z1_asym_o | zu_asym_e | zu_asym_o
  | lu_asym_e | lu_asym_o
  | rv_asym_e | rv_asym_o | zv_asym_e | zv_asym_o | lv_asym_e | lv_asym_o
  -- full grid including the boundary
  | ruFull | zuFull | rCon | zCon | rCon0 | zCon0 | gConEff | gCon
  | rCon_asym | zCon_asym
  -- half grid
  | r12 | ru12 | zu12 | rs | zs | tau | gsqrt | guu | guv | gvv | bsupu | bsupv | bsubu | bsubv
  | totalPressure
  -- one surface
  | rBSq | insideTotalPressure | delBSq
  -- forces
  | armn_e | armn_o | brmn_e | brmn_o | azmn_e | azmn_o | bzmn_e | bzmn_o
  | frcon_e | frcon_o | fzcon_e | fzcon_o
  | crmn_e | crmn_o | czmn_e | czmn_o
  | armn_asym_e | armn_asym_o | brmn_asym_e | brmn_asym_o | azmn_asym_e | azmn_asym_o
  | bzmn_asym_e | bzmn_asym_o | frcon_asym_e | frcon_asym_o | fzcon_asym_e | fzcon_asym_o
  | crmn_asym_e | crmn_asym_o | czmn_asym_e | czmn_asym_o
  | blmn_e | blmn_o | clmn_e | clmn_o | blmn_asym_e | blmn_asym_o | clmn_asym_e | clmn_asym_o
  -- preconditioner
  | bLambda | dLambda | cLambda | lambdaPreconditioner
  | ax | bx | cx | arm | azm | brm | bzm | ard | brd | azd | bzd | cxd
  | ar | az | dr | dz | br | bz | jMin
  | tcon | gsc | gcs | xmpq | faccon
  -- locals of deAliasConstraintForce
  | gcc | gss | gcona | reflIdx
  -- RadialProfiles
  | phipH | chipH | iotaH | currH | massH | sqrtSH | dVdsH | presH | bucoH | bvcoH | sm | sp
  | phipF | chipF | iotaF | sqrtSF | radialBlending
  | jcuruF | jcurvF | presgradF | dVdsF | equiF
  -- ThreadLocalStorage
  | bsubu_i | bsubv_i | gvv_gsqrt_i | guv_bsupu_i
  | P_i | rup_i | zup_i | rsp_i | zsp_i | taup_i | gbubu_i | gbubv_i | gbvbv_i
  | P_o | rup_o | zup_o | rsp_o | zsp_o | taup_o | gbubu_o | gbubv_o | gbvbv_o
  | P_avg | P_wavg | gbubu_avg | gbubu_wavg | gbvbv_avg | gbvbv_wavg | gbubv_avg | gbubv_wavg
  -- HandoverStorage
  | rCon_LCFS | zCon_LCFS | vacuum_magnetic_pressure
  | all_ar | all_az | all_dr | all_dz | all_br | all_bz | all_cr | all_cz
  -- FourierGeometry
  | rmncc | zmnsc | lmnsc | rmnss | zmncs | lmncs | rmnsc | zmncc | lmncc | rmncs | zmnss | lmnss
  -- FourierForces
  | frcc | fzsc | flsc | frss | fzcs | flcs | frsc | fzcc | flcc | frcs | fzss | flss
  -- FourierBasisFastPoloidal and Sizes
  | cosmu | sinmu | cosmum | sinmum | cosmui | sinmui | cosmumi | sinmumi
  | cosnv | sinnv | cosnvn | sinnvn | wInt

open Arr

namespace Env
variable (E : Env)

/-- `nrzt1`, `ideal_mhd_model.cc:306` -/
def nrzt1 : Int := E.s.nZnT * (E.r.nsMaxF1 - E.r.nsMinF1)
/-- `nrzt`, `ideal_mhd_model.cc:307` -/
def nrzt : Int := E.s.nZnT * (E.r.nsMaxF - E.r.nsMinF)
/-- `nrztIncludingBoundary`, `ideal_mhd_model.cc:329` -/
def nrztIncludingBoundary : Int := E.s.nZnT * (E.r.nsMaxFIncludingLcfs - E.r.nsMinF)
/-- size of the half-grid arrays, `ideal_mhd_model.cc:340-363` -/
def nHalf : Int := (E.r.nsMaxH - E.r.nsMinH) * E.s.nZnT
/-- `num_fc_RZ` = `num_fc_L` of `FourierCoeffs`, `fourier_coefficients.cc:21-27` -/
def numFc (nsMin nsMax : Int) : Int :=
  let jMaxIncludingBoundary := if E.r.nsMaxF1 = E.ns then E.ns else nsMax
  (jMaxIncludingBoundary - nsMin) * E.s.mpol * (E.s.ntor + 1)

/-- The extents an array is allocated with. An array that is only allocated for `lthreed`/`lasym`
    has extent 0 otherwise.
    `ideal_mhd_model.cc:297-476` (members), `:108-114` (locals of `deAliasConstraintForce`),
    `radial_profiles.cc:238-275`, `thread_local_storage.cc:9-58`, `handover_storage.cc:29-30`,
    `:136-156`, `fourier_coefficients.cc:18-57` with `fourier_geometry.cc:15-17` and
    `fourier_forces.cc:13-15`, `fourier_basis.cc:21-33`, `sizes.cc:131`;
    `vacuum_magnetic_pressure` is set to `nZnT` entries in `vmec.cc:208`. -/
def dims : Arr → List Int
  | r1_e | r1_o | ru_e | ru_o | z1_e | z1_o | zu_e | zu_o | lu_e | lu_o => [E.nrzt1]
  | rv_e | rv_o | zv_e | zv_o | lv_e | lv_o => [if E.s.lthreed then E.nrzt1 else 0]
  | r1_asym_e | r1_asym_o | ru_asym_e | ru_asym_o | z1_asym_e | z1_asym_o | zu_asym_e | zu_asym_o
  | lu_asym_e | lu_asym_o => [if E.s.lasym then E.nrzt1 else 0]
  | rv_asym_e | rv_asym_o | zv_asym_e | zv_asym_o | lv_asym_e | lv_asym_o =>
    [if E.s.lasym then (if E.s.lthreed then E.nrzt1 else 0) else 0]
  | ruFull | zuFull | rCon | zCon | rCon0 | zCon0 | gConEff | gCon => [E.nrztIncludingBoundary]
  | rCon_asym | zCon_asym => [if E.s.lasym then E.nrztIncludingBoundary else 0]
  | r12 | ru12 | zu12 | rs | zs | tau | gsqrt | guu | gvv | bsupu | bsupv | bsubu | bsubv
  | totalPressure => [E.nHalf]
  | guv => [if E.s.lthreed then E.nHalf else 0]
  | rBSq | insideTotalPressure | delBSq => [E.s.nZnT]
  | armn_e | armn_o | brmn_e | brmn_o | azmn_e | azmn_o | bzmn_e | bzmn_o
  | frcon_e | frcon_o | fzcon_e | fzcon_o => [E.nrzt]
  | crmn_e | crmn_o | czmn_e | czmn_o => [if E.s.lthreed then E.nrzt else 0]
  | armn_asym_e | armn_asym_o | brmn_asym_e | brmn_asym_o | azmn_asym_e | azmn_asym_o
  | bzmn_asym_e | bzmn_asym_o | frcon_asym_e | frcon_asym_o | fzcon_asym_e | fzcon_asym_o =>
    [if E.s.lasym then E.nrzt else 0]
  | crmn_asym_e | crmn_asym_o | czmn_asym_e | czmn_asym_o =>
    [if E.s.lasym then (if E.s.lthreed then E.nrzt else 0) else 0]
  | blmn_e | blmn_o => [E.nrztIncludingBoundary]
  | clmn_e | clmn_o => [if E.s.lthreed then E.nrztIncludingBoundary else 0]
  | blmn_asym_e | blmn_asym_o => [if E.s.lasym then E.nrztIncludingBoundary else 0]
  | clmn_asym_e | clmn_asym_o =>
    [if E.s.lasym then (if E.s.lthreed then E.nrztIncludingBoundary else 0) else 0]
  | bLambda | dLambda | cLambda => [E.r.nsMaxF1 - E.r.nsMinF1 + 1]
  | lambdaPreconditioner => [(E.r.nsMaxFIncludingLcfs - E.r.nsMinF) * E.s.mpol * (E.s.ntor + 1)]
  | ax => [(E.r.nsMaxH - E.r.nsMinH) * 4]
  | bx => [(E.r.nsMaxH - E.r.nsMinH) * 3]
  | cx => [E.r.nsMaxH - E.r.nsMinH]
  | arm | azm | brm | bzm => [(E.r.nsMaxH - E.r.nsMinH) * 2]
  | ard | brd | azd | bzd => [(E.r.nsMaxF - E.r.nsMinF) * 2]
  | cxd => [E.r.nsMaxF - E.r.nsMinF]
  | ar | az | dr | dz | br | bz => [(E.r.nsMaxF - E.r.nsMinF) * (E.s.ntor + 1) * E.s.mpol]
  | jMin => [E.s.mpol * (E.s.ntor + 1)]
  | tcon => [E.r.nsMaxFIncludingLcfs - E.r.nsMinF]
  | gsc | gcs => [E.s.ntor + 1]
  | xmpq | faccon => [E.s.mpol]
  | gcc | gss => [if E.s.lasym then E.s.ntor + 1 else 0]
  | gcona => [if E.s.lasym then E.s.nZnT else 0]
  | reflIdx => [if E.s.lasym then E.s.nThetaReduced else 0]
  | phipH | chipH | iotaH | currH | massH | sqrtSH | dVdsH | presH | bucoH | bvcoH | sm | sp =>
    [E.r.nsMaxH - E.r.nsMinH]
  | phipF | chipF | iotaF | sqrtSF | radialBlending => [E.r.nsMaxF1 - E.r.nsMinF1]
  | jcuruF | jcurvF | presgradF | dVdsF | equiF => [E.r.nsMaxFi - E.r.nsMinFi]
  | bsubu_i | bsubv_i | gvv_gsqrt_i | guv_bsupu_i
  | P_i | rup_i | zup_i | rsp_i | zsp_i | taup_i | gbubu_i | gbubv_i | gbvbv_i
  | P_o | rup_o | zup_o | rsp_o | zsp_o | taup_o | gbubu_o | gbubv_o | gbvbv_o
  | P_avg | P_wavg | gbubu_avg | gbubu_wavg | gbvbv_avg | gbvbv_wavg | gbubv_avg | gbubv_wavg =>
    [E.s.nZnT]
  | rCon_LCFS | zCon_LCFS | vacuum_magnetic_pressure => [E.s.nZnT]
  | all_ar | all_az | all_dr | all_dz | all_br | all_bz => [E.s.mnsize, E.ns]
  | all_cr | all_cz => [E.s.mnsize, E.s.num_basis, E.ns]
  | rmncc | zmnsc | lmnsc => [E.numFc E.r.nsMinF1 E.r.nsMaxF1]
  | rmnss | zmncs | lmncs => [if E.s.lthreed then E.numFc E.r.nsMinF1 E.r.nsMaxF1 else 0]
  | rmnsc | zmncc | lmncc => [if E.s.lasym then E.numFc E.r.nsMinF1 E.r.nsMaxF1 else 0]
  | rmncs | zmnss | lmnss =>
    [if E.s.lasym then (if E.s.lthreed then E.numFc E.r.nsMinF1 E.r.nsMaxF1 else 0) else 0]
  | frcc | fzsc | flsc => [E.numFc E.r.nsMinF E.r.nsMaxF]
  | frss | fzcs | flcs => [if E.s.lthreed then E.numFc E.r.nsMinF E.r.nsMaxF else 0]
  | frsc | fzcc | flcc => [if E.s.lasym then E.numFc E.r.nsMinF E.r.nsMaxF else 0]
  | frcs | fzss | flss =>
    [if E.s.lasym then (if E.s.lthreed then E.numFc E.r.nsMinF E.r.nsMaxF else 0) else 0]
  | cosmu | sinmu | cosmum | sinmum | cosmui | sinmui | cosmumi | sinmumi =>
    [E.s.nThetaReduced * (E.s.mnyq2 + 1)]
  | cosnv | sinnv | cosnvn | sinnvn => [(E.s.nnyq2 + 1) * E.s.nZeta]
  | wInt => [E.s.nThetaEff]

end Env

/-- one access `arr[i]`, `arr(i, j)` or `arr[i](j, k)` -/
structure Acc where
  arr : Arr
  idx : List Int

/-- `arr[i]` for every array of the list -/
def on (l : List Arr) (i : Int) : List Acc := l.map fun a => ⟨a, [i]⟩

/-- `for (int j = lo; j < hi; ++j) body` -/
def loop (lo hi : Int) (body : Int → List Acc) : List Acc := (irange lo hi).flatMap body

/-- `if (b) body` -/
def whenB (b : Bool) (body : List Acc) : List Acc := if b then body else []

/-- `absl::c_fill_n(v, n, 0)` for every array of the list -/
def fill (l : List Arr) (n : Int) : List Acc := loop 0 n fun i => on l i

/-- `v.segment(base, n)` or an `Eigen::Map` of `n` entries at `v.data() + base` -/
def seg (l : List Arr) (base n : Int) : List Acc := loop 0 n fun i => on l (base + i)

/-- `m_even ? e : o` -/
def par (m : Int) (e o : List Arr) : List Arr := if m.tmod 2 = 0 then e else o

end Verif.Bounds
