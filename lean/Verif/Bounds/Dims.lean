import Verif.Bounds.Attr
import Verif.Bounds.Lemmas

/-!
# The extent of every array as a rewrite rule

Each line is the value of `Env.dims` at one array; they only speed up rewriting.
-/
namespace Verif.Bounds
open Verif Arr

variable (E : Env) (i : Int)

@[bnd] theorem in_r1_e : In1 E i r1_e ↔ In i (E.nrzt1) := Iff.rfl
@[bnd] theorem in_r1_o : In1 E i r1_o ↔ In i (E.nrzt1) := Iff.rfl
@[bnd] theorem in_ru_e : In1 E i ru_e ↔ In i (E.nrzt1) := Iff.rfl
@[bnd] theorem in_ru_o : In1 E i ru_o ↔ In i (E.nrzt1) := Iff.rfl
@[bnd] theorem in_z1_e : In1 E i z1_e ↔ In i (E.nrzt1) := Iff.rfl
@[bnd] theorem in_z1_o : In1 E i z1_o ↔ In i (E.nrzt1) := Iff.rfl
@[bnd] theorem in_zu_e : In1 E i zu_e ↔ In i (E.nrzt1) := Iff.rfl
@[bnd] theorem in_zu_o : In1 E i zu_o ↔ In i (E.nrzt1) := Iff.rfl
@[bnd] theorem in_lu_e : In1 E i lu_e ↔ In i (E.nrzt1) := Iff.rfl
@[bnd] theorem in_lu_o : In1 E i lu_o ↔ In i (E.nrzt1) := Iff.rfl
@[bnd] theorem in_rv_e : In1 E i rv_e ↔ In i (if E.s.lthreed then E.nrzt1 else 0) := Iff.rfl
@[bnd] theorem in_rv_o : In1 E i rv_o ↔ In i (if E.s.lthreed then E.nrzt1 else 0) := Iff.rfl
@[bnd] theorem in_zv_e : In1 E i zv_e ↔ In i (if E.s.lthreed then E.nrzt1 else 0) := Iff.rfl
@[bnd] theorem in_zv_o : In1 E i zv_o ↔ In i (if E.s.lthreed then E.nrzt1 else 0) := Iff.rfl
@[bnd] theorem in_lv_e : In1 E i lv_e ↔ In i (if E.s.lthreed then E.nrzt1 else 0) := Iff.rfl
@[bnd] theorem in_lv_o : In1 E i lv_o ↔ In i (if E.s.lthreed then E.nrzt1 else 0) := Iff.rfl
@[bnd] theorem in_r1_asym_e : In1 E i r1_asym_e ↔ In i (if E.s.lasym then E.nrzt1 else 0) := Iff.rfl
@[bnd] theorem in_r1_asym_o : In1 E i r1_asym_o ↔ In i (if E.s.lasym then E.nrzt1 else 0) := Iff.rfl
@[bnd] theorem in_ru_asym_e : In1 E i ru_asym_e ↔ In i (if E.s.lasym then E.nrzt1 else 0) := Iff.rfl
@[bnd] theorem in_ru_asym_o : In1 E i ru_asym_o ↔ In i (if E.s.lasym then E.nrzt1 else 0) := Iff.rfl
@[bnd] theorem in_z1_asym_e : In1 E i z1_asym_e ↔ In i (if E.s.lasym then E.nrzt1 else 0) := Iff.rfl
@[bnd] theorem in_z1_asym_o : In1 E i z1_asym_o ↔ In i (if E.s.lasym then E.nrzt1 else 0) := Iff.rfl
@[bnd] theorem in_zu_asym_e : In1 E i zu_asym_e ↔ In i (if E.s.lasym then E.nrzt1 else 0) := Iff.rfl
@[bnd] theorem in_zu_asym_o : In1 E i zu_asym_o ↔ In i (if E.s.lasym then E.nrzt1 else 0) := Iff.rfl
@[bnd] theorem in_lu_asym_e : In1 E i lu_asym_e ↔ In i (if E.s.lasym then E.nrzt1 else 0) := Iff.rfl
@[bnd] theorem in_lu_asym_o : In1 E i lu_asym_o ↔ In i (if E.s.lasym then E.nrzt1 else 0) := Iff.rfl
@[bnd] theorem in_rv_asym_e : In1 E i rv_asym_e ↔ In i (if E.s.lasym then (if E.s.lthreed then E.nrzt1 else 0) else 0) :=
  Iff.rfl
@[bnd] theorem in_rv_asym_o : In1 E i rv_asym_o ↔ In i (if E.s.lasym then (if E.s.lthreed then E.nrzt1 else 0) else 0) :=
  Iff.rfl
@[bnd] theorem in_zv_asym_e : In1 E i zv_asym_e ↔ In i (if E.s.lasym then (if E.s.lthreed then E.nrzt1 else 0) else 0) :=
  Iff.rfl
@[bnd] theorem in_zv_asym_o : In1 E i zv_asym_o ↔ In i (if E.s.lasym then (if E.s.lthreed then E.nrzt1 else 0) else 0) :=
  Iff.rfl
@[bnd] theorem in_lv_asym_e : In1 E i lv_asym_e ↔ In i (if E.s.lasym then (if E.s.lthreed then E.nrzt1 else 0) else 0) :=
  Iff.rfl
@[bnd] theorem in_lv_asym_o : In1 E i lv_asym_o ↔ In i (if E.s.lasym then (if E.s.lthreed then E.nrzt1 else 0) else 0) :=
  Iff.rfl
@[bnd] theorem in_ruFull : In1 E i ruFull ↔ In i (E.nrztIncludingBoundary) := Iff.rfl
@[bnd] theorem in_zuFull : In1 E i zuFull ↔ In i (E.nrztIncludingBoundary) := Iff.rfl
@[bnd] theorem in_rCon : In1 E i rCon ↔ In i (E.nrztIncludingBoundary) := Iff.rfl
@[bnd] theorem in_zCon : In1 E i zCon ↔ In i (E.nrztIncludingBoundary) := Iff.rfl
@[bnd] theorem in_rCon0 : In1 E i rCon0 ↔ In i (E.nrztIncludingBoundary) := Iff.rfl
@[bnd] theorem in_zCon0 : In1 E i zCon0 ↔ In i (E.nrztIncludingBoundary) := Iff.rfl
@[bnd] theorem in_gConEff : In1 E i gConEff ↔ In i (E.nrztIncludingBoundary) := Iff.rfl
@[bnd] theorem in_gCon : In1 E i gCon ↔ In i (E.nrztIncludingBoundary) := Iff.rfl
@[bnd] theorem in_rCon_asym : In1 E i rCon_asym ↔ In i (if E.s.lasym then E.nrztIncludingBoundary else 0) :=
  Iff.rfl
@[bnd] theorem in_zCon_asym : In1 E i zCon_asym ↔ In i (if E.s.lasym then E.nrztIncludingBoundary else 0) :=
  Iff.rfl
@[bnd] theorem in_r12 : In1 E i r12 ↔ In i (E.nHalf) := Iff.rfl
@[bnd] theorem in_ru12 : In1 E i ru12 ↔ In i (E.nHalf) := Iff.rfl
@[bnd] theorem in_zu12 : In1 E i zu12 ↔ In i (E.nHalf) := Iff.rfl
@[bnd] theorem in_rs : In1 E i rs ↔ In i (E.nHalf) := Iff.rfl
@[bnd] theorem in_zs : In1 E i zs ↔ In i (E.nHalf) := Iff.rfl
@[bnd] theorem in_tau : In1 E i tau ↔ In i (E.nHalf) := Iff.rfl
@[bnd] theorem in_gsqrt : In1 E i gsqrt ↔ In i (E.nHalf) := Iff.rfl
@[bnd] theorem in_guu : In1 E i guu ↔ In i (E.nHalf) := Iff.rfl
@[bnd] theorem in_gvv : In1 E i gvv ↔ In i (E.nHalf) := Iff.rfl
@[bnd] theorem in_bsupu : In1 E i bsupu ↔ In i (E.nHalf) := Iff.rfl
@[bnd] theorem in_bsupv : In1 E i bsupv ↔ In i (E.nHalf) := Iff.rfl
@[bnd] theorem in_bsubu : In1 E i bsubu ↔ In i (E.nHalf) := Iff.rfl
@[bnd] theorem in_bsubv : In1 E i bsubv ↔ In i (E.nHalf) := Iff.rfl
@[bnd] theorem in_totalPressure : In1 E i totalPressure ↔ In i (E.nHalf) := Iff.rfl
@[bnd] theorem in_guv : In1 E i guv ↔ In i (if E.s.lthreed then E.nHalf else 0) := Iff.rfl
@[bnd] theorem in_rBSq : In1 E i rBSq ↔ In i (E.s.nZnT) := Iff.rfl
@[bnd] theorem in_insideTotalPressure : In1 E i insideTotalPressure ↔ In i (E.s.nZnT) := Iff.rfl
@[bnd] theorem in_delBSq : In1 E i delBSq ↔ In i (E.s.nZnT) := Iff.rfl
@[bnd] theorem in_armn_e : In1 E i armn_e ↔ In i (E.nrzt) := Iff.rfl
@[bnd] theorem in_armn_o : In1 E i armn_o ↔ In i (E.nrzt) := Iff.rfl
@[bnd] theorem in_brmn_e : In1 E i brmn_e ↔ In i (E.nrzt) := Iff.rfl
@[bnd] theorem in_brmn_o : In1 E i brmn_o ↔ In i (E.nrzt) := Iff.rfl
@[bnd] theorem in_azmn_e : In1 E i azmn_e ↔ In i (E.nrzt) := Iff.rfl
@[bnd] theorem in_azmn_o : In1 E i azmn_o ↔ In i (E.nrzt) := Iff.rfl
@[bnd] theorem in_bzmn_e : In1 E i bzmn_e ↔ In i (E.nrzt) := Iff.rfl
@[bnd] theorem in_bzmn_o : In1 E i bzmn_o ↔ In i (E.nrzt) := Iff.rfl
@[bnd] theorem in_frcon_e : In1 E i frcon_e ↔ In i (E.nrzt) := Iff.rfl
@[bnd] theorem in_frcon_o : In1 E i frcon_o ↔ In i (E.nrzt) := Iff.rfl
@[bnd] theorem in_fzcon_e : In1 E i fzcon_e ↔ In i (E.nrzt) := Iff.rfl
@[bnd] theorem in_fzcon_o : In1 E i fzcon_o ↔ In i (E.nrzt) := Iff.rfl
@[bnd] theorem in_crmn_e : In1 E i crmn_e ↔ In i (if E.s.lthreed then E.nrzt else 0) := Iff.rfl
@[bnd] theorem in_crmn_o : In1 E i crmn_o ↔ In i (if E.s.lthreed then E.nrzt else 0) := Iff.rfl
@[bnd] theorem in_czmn_e : In1 E i czmn_e ↔ In i (if E.s.lthreed then E.nrzt else 0) := Iff.rfl
@[bnd] theorem in_czmn_o : In1 E i czmn_o ↔ In i (if E.s.lthreed then E.nrzt else 0) := Iff.rfl
@[bnd] theorem in_armn_asym_e : In1 E i armn_asym_e ↔ In i (if E.s.lasym then E.nrzt else 0) :=
  Iff.rfl
@[bnd] theorem in_armn_asym_o : In1 E i armn_asym_o ↔ In i (if E.s.lasym then E.nrzt else 0) :=
  Iff.rfl
@[bnd] theorem in_brmn_asym_e : In1 E i brmn_asym_e ↔ In i (if E.s.lasym then E.nrzt else 0) :=
  Iff.rfl
@[bnd] theorem in_brmn_asym_o : In1 E i brmn_asym_o ↔ In i (if E.s.lasym then E.nrzt else 0) :=
  Iff.rfl
@[bnd] theorem in_azmn_asym_e : In1 E i azmn_asym_e ↔ In i (if E.s.lasym then E.nrzt else 0) :=
  Iff.rfl
@[bnd] theorem in_azmn_asym_o : In1 E i azmn_asym_o ↔ In i (if E.s.lasym then E.nrzt else 0) :=
  Iff.rfl
@[bnd] theorem in_bzmn_asym_e : In1 E i bzmn_asym_e ↔ In i (if E.s.lasym then E.nrzt else 0) :=
  Iff.rfl
@[bnd] theorem in_bzmn_asym_o : In1 E i bzmn_asym_o ↔ In i (if E.s.lasym then E.nrzt else 0) :=
  Iff.rfl
@[bnd] theorem in_frcon_asym_e : In1 E i frcon_asym_e ↔ In i (if E.s.lasym then E.nrzt else 0) :=
  Iff.rfl
@[bnd] theorem in_frcon_asym_o : In1 E i frcon_asym_o ↔ In i (if E.s.lasym then E.nrzt else 0) :=
  Iff.rfl
@[bnd] theorem in_fzcon_asym_e : In1 E i fzcon_asym_e ↔ In i (if E.s.lasym then E.nrzt else 0) :=
  Iff.rfl
@[bnd] theorem in_fzcon_asym_o : In1 E i fzcon_asym_o ↔ In i (if E.s.lasym then E.nrzt else 0) :=
  Iff.rfl
@[bnd] theorem in_crmn_asym_e : In1 E i crmn_asym_e ↔ In i (if E.s.lasym then (if E.s.lthreed then E.nrzt else 0) else 0) :=
  Iff.rfl
@[bnd] theorem in_crmn_asym_o : In1 E i crmn_asym_o ↔ In i (if E.s.lasym then (if E.s.lthreed then E.nrzt else 0) else 0) :=
  Iff.rfl
@[bnd] theorem in_czmn_asym_e : In1 E i czmn_asym_e ↔ In i (if E.s.lasym then (if E.s.lthreed then E.nrzt else 0) else 0) :=
  Iff.rfl
@[bnd] theorem in_czmn_asym_o : In1 E i czmn_asym_o ↔ In i (if E.s.lasym then (if E.s.lthreed then E.nrzt else 0) else 0) :=
  Iff.rfl
@[bnd] theorem in_blmn_e : In1 E i blmn_e ↔ In i (E.nrztIncludingBoundary) := Iff.rfl
@[bnd] theorem in_blmn_o : In1 E i blmn_o ↔ In i (E.nrztIncludingBoundary) := Iff.rfl
@[bnd] theorem in_clmn_e : In1 E i clmn_e ↔ In i (if E.s.lthreed then E.nrztIncludingBoundary else 0) :=
  Iff.rfl
@[bnd] theorem in_clmn_o : In1 E i clmn_o ↔ In i (if E.s.lthreed then E.nrztIncludingBoundary else 0) :=
  Iff.rfl
@[bnd] theorem in_blmn_asym_e : In1 E i blmn_asym_e ↔ In i (if E.s.lasym then E.nrztIncludingBoundary else 0) :=
  Iff.rfl
@[bnd] theorem in_blmn_asym_o : In1 E i blmn_asym_o ↔ In i (if E.s.lasym then E.nrztIncludingBoundary else 0) :=
  Iff.rfl
@[bnd] theorem in_clmn_asym_e : In1 E i clmn_asym_e ↔ In i (if E.s.lasym then (if E.s.lthreed then E.nrztIncludingBoundary else 0) else 0) :=
  Iff.rfl
@[bnd] theorem in_clmn_asym_o : In1 E i clmn_asym_o ↔ In i (if E.s.lasym then (if E.s.lthreed then E.nrztIncludingBoundary else 0) else 0) :=
  Iff.rfl
@[bnd] theorem in_bLambda : In1 E i bLambda ↔ In i (E.r.nsMaxF1 - E.r.nsMinF1 + 1) := Iff.rfl
@[bnd] theorem in_dLambda : In1 E i dLambda ↔ In i (E.r.nsMaxF1 - E.r.nsMinF1 + 1) := Iff.rfl
@[bnd] theorem in_cLambda : In1 E i cLambda ↔ In i (E.r.nsMaxF1 - E.r.nsMinF1 + 1) := Iff.rfl
@[bnd] theorem in_lambdaPreconditioner : In1 E i lambdaPreconditioner ↔ In i ((E.r.nsMaxFIncludingLcfs - E.r.nsMinF) * E.s.mpol * (E.s.ntor + 1)) :=
  Iff.rfl
@[bnd] theorem in_ax : In1 E i ax ↔ In i ((E.r.nsMaxH - E.r.nsMinH) * 4) := Iff.rfl
@[bnd] theorem in_bx : In1 E i bx ↔ In i ((E.r.nsMaxH - E.r.nsMinH) * 3) := Iff.rfl
@[bnd] theorem in_cx : In1 E i cx ↔ In i (E.r.nsMaxH - E.r.nsMinH) := Iff.rfl
@[bnd] theorem in_arm : In1 E i arm ↔ In i ((E.r.nsMaxH - E.r.nsMinH) * 2) := Iff.rfl
@[bnd] theorem in_azm : In1 E i azm ↔ In i ((E.r.nsMaxH - E.r.nsMinH) * 2) := Iff.rfl
@[bnd] theorem in_brm : In1 E i brm ↔ In i ((E.r.nsMaxH - E.r.nsMinH) * 2) := Iff.rfl
@[bnd] theorem in_bzm : In1 E i bzm ↔ In i ((E.r.nsMaxH - E.r.nsMinH) * 2) := Iff.rfl
@[bnd] theorem in_ard : In1 E i ard ↔ In i ((E.r.nsMaxF - E.r.nsMinF) * 2) := Iff.rfl
@[bnd] theorem in_brd : In1 E i brd ↔ In i ((E.r.nsMaxF - E.r.nsMinF) * 2) := Iff.rfl
@[bnd] theorem in_azd : In1 E i azd ↔ In i ((E.r.nsMaxF - E.r.nsMinF) * 2) := Iff.rfl
@[bnd] theorem in_bzd : In1 E i bzd ↔ In i ((E.r.nsMaxF - E.r.nsMinF) * 2) := Iff.rfl
@[bnd] theorem in_cxd : In1 E i cxd ↔ In i (E.r.nsMaxF - E.r.nsMinF) := Iff.rfl
@[bnd] theorem in_ar : In1 E i ar ↔ In i ((E.r.nsMaxF - E.r.nsMinF) * (E.s.ntor + 1) * E.s.mpol) :=
  Iff.rfl
@[bnd] theorem in_az : In1 E i az ↔ In i ((E.r.nsMaxF - E.r.nsMinF) * (E.s.ntor + 1) * E.s.mpol) :=
  Iff.rfl
@[bnd] theorem in_dr : In1 E i dr ↔ In i ((E.r.nsMaxF - E.r.nsMinF) * (E.s.ntor + 1) * E.s.mpol) :=
  Iff.rfl
@[bnd] theorem in_dz : In1 E i dz ↔ In i ((E.r.nsMaxF - E.r.nsMinF) * (E.s.ntor + 1) * E.s.mpol) :=
  Iff.rfl
@[bnd] theorem in_br : In1 E i br ↔ In i ((E.r.nsMaxF - E.r.nsMinF) * (E.s.ntor + 1) * E.s.mpol) :=
  Iff.rfl
@[bnd] theorem in_bz : In1 E i bz ↔ In i ((E.r.nsMaxF - E.r.nsMinF) * (E.s.ntor + 1) * E.s.mpol) :=
  Iff.rfl
@[bnd] theorem in_jMin : In1 E i jMin ↔ In i (E.s.mpol * (E.s.ntor + 1)) := Iff.rfl
@[bnd] theorem in_tcon : In1 E i tcon ↔ In i (E.r.nsMaxFIncludingLcfs - E.r.nsMinF) := Iff.rfl
@[bnd] theorem in_gsc : In1 E i gsc ↔ In i (E.s.ntor + 1) := Iff.rfl
@[bnd] theorem in_gcs : In1 E i gcs ↔ In i (E.s.ntor + 1) := Iff.rfl
@[bnd] theorem in_xmpq : In1 E i xmpq ↔ In i (E.s.mpol) := Iff.rfl
@[bnd] theorem in_faccon : In1 E i faccon ↔ In i (E.s.mpol) := Iff.rfl
@[bnd] theorem in_gcc : In1 E i gcc ↔ In i (if E.s.lasym then E.s.ntor + 1 else 0) := Iff.rfl
@[bnd] theorem in_gss : In1 E i gss ↔ In i (if E.s.lasym then E.s.ntor + 1 else 0) := Iff.rfl
@[bnd] theorem in_gcona : In1 E i gcona ↔ In i (if E.s.lasym then E.s.nZnT else 0) := Iff.rfl
@[bnd] theorem in_reflIdx : In1 E i reflIdx ↔ In i (if E.s.lasym then E.s.nThetaReduced else 0) :=
  Iff.rfl
@[bnd] theorem in_phipH : In1 E i phipH ↔ In i (E.r.nsMaxH - E.r.nsMinH) := Iff.rfl
@[bnd] theorem in_chipH : In1 E i chipH ↔ In i (E.r.nsMaxH - E.r.nsMinH) := Iff.rfl
@[bnd] theorem in_iotaH : In1 E i iotaH ↔ In i (E.r.nsMaxH - E.r.nsMinH) := Iff.rfl
@[bnd] theorem in_currH : In1 E i currH ↔ In i (E.r.nsMaxH - E.r.nsMinH) := Iff.rfl
@[bnd] theorem in_massH : In1 E i massH ↔ In i (E.r.nsMaxH - E.r.nsMinH) := Iff.rfl
@[bnd] theorem in_sqrtSH : In1 E i sqrtSH ↔ In i (E.r.nsMaxH - E.r.nsMinH) := Iff.rfl
@[bnd] theorem in_dVdsH : In1 E i dVdsH ↔ In i (E.r.nsMaxH - E.r.nsMinH) := Iff.rfl
@[bnd] theorem in_presH : In1 E i presH ↔ In i (E.r.nsMaxH - E.r.nsMinH) := Iff.rfl
@[bnd] theorem in_bucoH : In1 E i bucoH ↔ In i (E.r.nsMaxH - E.r.nsMinH) := Iff.rfl
@[bnd] theorem in_bvcoH : In1 E i bvcoH ↔ In i (E.r.nsMaxH - E.r.nsMinH) := Iff.rfl
@[bnd] theorem in_sm : In1 E i sm ↔ In i (E.r.nsMaxH - E.r.nsMinH) := Iff.rfl
@[bnd] theorem in_sp : In1 E i sp ↔ In i (E.r.nsMaxH - E.r.nsMinH) := Iff.rfl
@[bnd] theorem in_phipF : In1 E i phipF ↔ In i (E.r.nsMaxF1 - E.r.nsMinF1) := Iff.rfl
@[bnd] theorem in_chipF : In1 E i chipF ↔ In i (E.r.nsMaxF1 - E.r.nsMinF1) := Iff.rfl
@[bnd] theorem in_iotaF : In1 E i iotaF ↔ In i (E.r.nsMaxF1 - E.r.nsMinF1) := Iff.rfl
@[bnd] theorem in_sqrtSF : In1 E i sqrtSF ↔ In i (E.r.nsMaxF1 - E.r.nsMinF1) := Iff.rfl
@[bnd] theorem in_radialBlending : In1 E i radialBlending ↔ In i (E.r.nsMaxF1 - E.r.nsMinF1) :=
  Iff.rfl
@[bnd] theorem in_jcuruF : In1 E i jcuruF ↔ In i (E.r.nsMaxFi - E.r.nsMinFi) := Iff.rfl
@[bnd] theorem in_jcurvF : In1 E i jcurvF ↔ In i (E.r.nsMaxFi - E.r.nsMinFi) := Iff.rfl
@[bnd] theorem in_presgradF : In1 E i presgradF ↔ In i (E.r.nsMaxFi - E.r.nsMinFi) := Iff.rfl
@[bnd] theorem in_dVdsF : In1 E i dVdsF ↔ In i (E.r.nsMaxFi - E.r.nsMinFi) := Iff.rfl
@[bnd] theorem in_equiF : In1 E i equiF ↔ In i (E.r.nsMaxFi - E.r.nsMinFi) := Iff.rfl
@[bnd] theorem in_bsubu_i : In1 E i bsubu_i ↔ In i (E.s.nZnT) := Iff.rfl
@[bnd] theorem in_bsubv_i : In1 E i bsubv_i ↔ In i (E.s.nZnT) := Iff.rfl
@[bnd] theorem in_gvv_gsqrt_i : In1 E i gvv_gsqrt_i ↔ In i (E.s.nZnT) := Iff.rfl
@[bnd] theorem in_guv_bsupu_i : In1 E i guv_bsupu_i ↔ In i (E.s.nZnT) := Iff.rfl
@[bnd] theorem in_P_i : In1 E i P_i ↔ In i (E.s.nZnT) := Iff.rfl
@[bnd] theorem in_rup_i : In1 E i rup_i ↔ In i (E.s.nZnT) := Iff.rfl
@[bnd] theorem in_zup_i : In1 E i zup_i ↔ In i (E.s.nZnT) := Iff.rfl
@[bnd] theorem in_rsp_i : In1 E i rsp_i ↔ In i (E.s.nZnT) := Iff.rfl
@[bnd] theorem in_zsp_i : In1 E i zsp_i ↔ In i (E.s.nZnT) := Iff.rfl
@[bnd] theorem in_taup_i : In1 E i taup_i ↔ In i (E.s.nZnT) := Iff.rfl
@[bnd] theorem in_gbubu_i : In1 E i gbubu_i ↔ In i (E.s.nZnT) := Iff.rfl
@[bnd] theorem in_gbubv_i : In1 E i gbubv_i ↔ In i (E.s.nZnT) := Iff.rfl
@[bnd] theorem in_gbvbv_i : In1 E i gbvbv_i ↔ In i (E.s.nZnT) := Iff.rfl
@[bnd] theorem in_P_o : In1 E i P_o ↔ In i (E.s.nZnT) := Iff.rfl
@[bnd] theorem in_rup_o : In1 E i rup_o ↔ In i (E.s.nZnT) := Iff.rfl
@[bnd] theorem in_zup_o : In1 E i zup_o ↔ In i (E.s.nZnT) := Iff.rfl
@[bnd] theorem in_rsp_o : In1 E i rsp_o ↔ In i (E.s.nZnT) := Iff.rfl
@[bnd] theorem in_zsp_o : In1 E i zsp_o ↔ In i (E.s.nZnT) := Iff.rfl
@[bnd] theorem in_taup_o : In1 E i taup_o ↔ In i (E.s.nZnT) := Iff.rfl
@[bnd] theorem in_gbubu_o : In1 E i gbubu_o ↔ In i (E.s.nZnT) := Iff.rfl
@[bnd] theorem in_gbubv_o : In1 E i gbubv_o ↔ In i (E.s.nZnT) := Iff.rfl
@[bnd] theorem in_gbvbv_o : In1 E i gbvbv_o ↔ In i (E.s.nZnT) := Iff.rfl
@[bnd] theorem in_P_avg : In1 E i P_avg ↔ In i (E.s.nZnT) := Iff.rfl
@[bnd] theorem in_P_wavg : In1 E i P_wavg ↔ In i (E.s.nZnT) := Iff.rfl
@[bnd] theorem in_gbubu_avg : In1 E i gbubu_avg ↔ In i (E.s.nZnT) := Iff.rfl
@[bnd] theorem in_gbubu_wavg : In1 E i gbubu_wavg ↔ In i (E.s.nZnT) := Iff.rfl
@[bnd] theorem in_gbvbv_avg : In1 E i gbvbv_avg ↔ In i (E.s.nZnT) := Iff.rfl
@[bnd] theorem in_gbvbv_wavg : In1 E i gbvbv_wavg ↔ In i (E.s.nZnT) := Iff.rfl
@[bnd] theorem in_gbubv_avg : In1 E i gbubv_avg ↔ In i (E.s.nZnT) := Iff.rfl
@[bnd] theorem in_gbubv_wavg : In1 E i gbubv_wavg ↔ In i (E.s.nZnT) := Iff.rfl
@[bnd] theorem in_rCon_LCFS : In1 E i rCon_LCFS ↔ In i (E.s.nZnT) := Iff.rfl
@[bnd] theorem in_zCon_LCFS : In1 E i zCon_LCFS ↔ In i (E.s.nZnT) := Iff.rfl
@[bnd] theorem in_vacuum_magnetic_pressure : In1 E i vacuum_magnetic_pressure ↔ In i (E.s.nZnT) :=
  Iff.rfl
@[bnd] theorem in_rmncc : In1 E i rmncc ↔ In i (E.numFc E.r.nsMinF1 E.r.nsMaxF1) := Iff.rfl
@[bnd] theorem in_zmnsc : In1 E i zmnsc ↔ In i (E.numFc E.r.nsMinF1 E.r.nsMaxF1) := Iff.rfl
@[bnd] theorem in_lmnsc : In1 E i lmnsc ↔ In i (E.numFc E.r.nsMinF1 E.r.nsMaxF1) := Iff.rfl
@[bnd] theorem in_rmnss : In1 E i rmnss ↔ In i (if E.s.lthreed then E.numFc E.r.nsMinF1 E.r.nsMaxF1 else 0) :=
  Iff.rfl
@[bnd] theorem in_zmncs : In1 E i zmncs ↔ In i (if E.s.lthreed then E.numFc E.r.nsMinF1 E.r.nsMaxF1 else 0) :=
  Iff.rfl
@[bnd] theorem in_lmncs : In1 E i lmncs ↔ In i (if E.s.lthreed then E.numFc E.r.nsMinF1 E.r.nsMaxF1 else 0) :=
  Iff.rfl
@[bnd] theorem in_rmnsc : In1 E i rmnsc ↔ In i (if E.s.lasym then E.numFc E.r.nsMinF1 E.r.nsMaxF1 else 0) :=
  Iff.rfl
@[bnd] theorem in_zmncc : In1 E i zmncc ↔ In i (if E.s.lasym then E.numFc E.r.nsMinF1 E.r.nsMaxF1 else 0) :=
  Iff.rfl
@[bnd] theorem in_lmncc : In1 E i lmncc ↔ In i (if E.s.lasym then E.numFc E.r.nsMinF1 E.r.nsMaxF1 else 0) :=
  Iff.rfl
@[bnd] theorem in_rmncs : In1 E i rmncs ↔ In i (if E.s.lasym then (if E.s.lthreed then E.numFc E.r.nsMinF1 E.r.nsMaxF1 else 0) else 0) :=
  Iff.rfl
@[bnd] theorem in_zmnss : In1 E i zmnss ↔ In i (if E.s.lasym then (if E.s.lthreed then E.numFc E.r.nsMinF1 E.r.nsMaxF1 else 0) else 0) :=
  Iff.rfl
@[bnd] theorem in_lmnss : In1 E i lmnss ↔ In i (if E.s.lasym then (if E.s.lthreed then E.numFc E.r.nsMinF1 E.r.nsMaxF1 else 0) else 0) :=
  Iff.rfl
@[bnd] theorem in_frcc : In1 E i frcc ↔ In i (E.numFc E.r.nsMinF E.r.nsMaxF) := Iff.rfl
@[bnd] theorem in_fzsc : In1 E i fzsc ↔ In i (E.numFc E.r.nsMinF E.r.nsMaxF) := Iff.rfl
@[bnd] theorem in_flsc : In1 E i flsc ↔ In i (E.numFc E.r.nsMinF E.r.nsMaxF) := Iff.rfl
@[bnd] theorem in_frss : In1 E i frss ↔ In i (if E.s.lthreed then E.numFc E.r.nsMinF E.r.nsMaxF else 0) :=
  Iff.rfl
@[bnd] theorem in_fzcs : In1 E i fzcs ↔ In i (if E.s.lthreed then E.numFc E.r.nsMinF E.r.nsMaxF else 0) :=
  Iff.rfl
@[bnd] theorem in_flcs : In1 E i flcs ↔ In i (if E.s.lthreed then E.numFc E.r.nsMinF E.r.nsMaxF else 0) :=
  Iff.rfl
@[bnd] theorem in_frsc : In1 E i frsc ↔ In i (if E.s.lasym then E.numFc E.r.nsMinF E.r.nsMaxF else 0) :=
  Iff.rfl
@[bnd] theorem in_fzcc : In1 E i fzcc ↔ In i (if E.s.lasym then E.numFc E.r.nsMinF E.r.nsMaxF else 0) :=
  Iff.rfl
@[bnd] theorem in_flcc : In1 E i flcc ↔ In i (if E.s.lasym then E.numFc E.r.nsMinF E.r.nsMaxF else 0) :=
  Iff.rfl
@[bnd] theorem in_frcs : In1 E i frcs ↔ In i (if E.s.lasym then (if E.s.lthreed then E.numFc E.r.nsMinF E.r.nsMaxF else 0) else 0) :=
  Iff.rfl
@[bnd] theorem in_fzss : In1 E i fzss ↔ In i (if E.s.lasym then (if E.s.lthreed then E.numFc E.r.nsMinF E.r.nsMaxF else 0) else 0) :=
  Iff.rfl
@[bnd] theorem in_flss : In1 E i flss ↔ In i (if E.s.lasym then (if E.s.lthreed then E.numFc E.r.nsMinF E.r.nsMaxF else 0) else 0) :=
  Iff.rfl
@[bnd] theorem in_cosmu : In1 E i cosmu ↔ In i (E.s.nThetaReduced * (E.s.mnyq2 + 1)) := Iff.rfl
@[bnd] theorem in_sinmu : In1 E i sinmu ↔ In i (E.s.nThetaReduced * (E.s.mnyq2 + 1)) := Iff.rfl
@[bnd] theorem in_cosmum : In1 E i cosmum ↔ In i (E.s.nThetaReduced * (E.s.mnyq2 + 1)) := Iff.rfl
@[bnd] theorem in_sinmum : In1 E i sinmum ↔ In i (E.s.nThetaReduced * (E.s.mnyq2 + 1)) := Iff.rfl
@[bnd] theorem in_cosmui : In1 E i cosmui ↔ In i (E.s.nThetaReduced * (E.s.mnyq2 + 1)) := Iff.rfl
@[bnd] theorem in_sinmui : In1 E i sinmui ↔ In i (E.s.nThetaReduced * (E.s.mnyq2 + 1)) := Iff.rfl
@[bnd] theorem in_cosmumi : In1 E i cosmumi ↔ In i (E.s.nThetaReduced * (E.s.mnyq2 + 1)) := Iff.rfl
@[bnd] theorem in_sinmumi : In1 E i sinmumi ↔ In i (E.s.nThetaReduced * (E.s.mnyq2 + 1)) := Iff.rfl
@[bnd] theorem in_cosnv : In1 E i cosnv ↔ In i ((E.s.nnyq2 + 1) * E.s.nZeta) := Iff.rfl
@[bnd] theorem in_sinnv : In1 E i sinnv ↔ In i ((E.s.nnyq2 + 1) * E.s.nZeta) := Iff.rfl
@[bnd] theorem in_cosnvn : In1 E i cosnvn ↔ In i ((E.s.nnyq2 + 1) * E.s.nZeta) := Iff.rfl
@[bnd] theorem in_sinnvn : In1 E i sinnvn ↔ In i ((E.s.nnyq2 + 1) * E.s.nZeta) := Iff.rfl
@[bnd] theorem in_wInt : In1 E i wInt ↔ In i (E.s.nThetaEff) := Iff.rfl

end Verif.Bounds
